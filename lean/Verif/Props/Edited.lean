import Verif.Lemmas.Edited
import Verif.Props.Append

/-! Editing a paragraph (C93): what follows is moved up or down, nothing else changes. -/

namespace Sinab

open Sinab.Append

/-! ## What is painted -/

/-- what is painted for some fragments in a containing block with the given corner -/
def callsAt (o : PVec2 Length) (fs : List Fragment) : List DrawCall := (paintAll (blockAt o) fs).calls

theorem callsAt_own (o : PVec2 Length) {fs : List Fragment} (h : uprightAll fs) (cb : PRect Length)
    (hcb : cb.topLeft = o) : paintAll cb fs = ⟨callsAt o fs, none⟩ := by
  have e : ∀ cb : PRect Length, cb.topLeft = o → paintAll cb fs = _ := fun cb h1 =>
    paintAll_own o fs [] cb h (by rw [h1]; simp [sumOffsets, pvec2_add])
  rw [callsAt, e (blockAt o) rfl, e cb hcb]

theorem callsAt_cons (o : PVec2 Length) {f : Fragment} {fs : List Fragment} (h : f.upright) :
    callsAt o (f :: fs) = callsAt o [f] ++ callsAt o fs := by
  have e := callsAt_own o (fs := [f]) ⟨h, trivial⟩ (blockAt o) rfl
  rw [paintAll, paintAll] at e
  simp only [callsAt, paintAll, Trace.andThen] at e ⊢
  cases hp : (f.paintOnto (blockAt o)).panic with
  | some p =>
    rw [hp] at e
    have e' := congrArg Trace.panic e
    rw [hp] at e'
    cases e'
  | none => simp [Trace.done]

theorem callsAt_append (o : PVec2 Length) : ∀ (a b : List Fragment), uprightAll a →
    callsAt o (a ++ b) = callsAt o a ++ callsAt o b
  | [], b, _ => rfl
  | f :: a, b, h => by
    rw [List.cons_append, callsAt_cons o h.1, callsAt_cons o (fs := a) h.1, callsAt_append o a b h.2, List.append_assoc]

theorem callsAt_box (o : PVec2 Length) {st : Style} {g : BoxGeom} {m : CollapsedBlockMargins} {cs : List Fragment}
    (h : uprightAll cs) : callsAt o [.box st g m cs] = ownCalls o (.box st g m cs) ++
      callsAt (o + (Fragment.box st g m cs).offset) cs := by
  rw [callsAt, paintAll, paintAll, paint_box, callsAt_own (o + (Fragment.box st g m cs).offset) h]
  · simp [Trace.andThen, Trace.done, blockAt]
  · simp only [blockAt, pvec2_add, PVec2.mk.injEq]
    constructor <;> ring

theorem callsAt_move (o v : PVec2 Length) {fs : List Fragment} (h : uprightAll fs) :
    callsAt (o + v) fs = (callsAt o fs).map (DrawCall.move v) := by
  have := (C56_translate v (blockAt o) fs h).2
  rw [callsAt_own (o + v) h _ (by simp [blockAt, PRect.translate])] at this
  exact this

theorem borderArea_down (g : BoxGeom) (o : PVec2 Length) (e : Length) :
    BoxGeom.borderArea { g with contentRect := g.contentRect.addBlock e } o = g.borderArea (o + ⟨0, e⟩) := by
  simp only [BoxGeom.borderArea, Rect.addBlock, pvec2_add, Area.mk.injEq]
  refine ⟨?_, ?_, ?_, ?_⟩ <;> ring

theorem ownCalls_down (o : PVec2 Length) (e : Length) (f : Fragment) :
    ownCalls o (f.translateBlock e) = ownCalls (o + ⟨0, e⟩) f := by
  cases f with
  | text st r t => simp [Fragment.translateBlock, ownCalls, pvec2_add, Rect.addBlock]; ring_nf
  | anonymous r cs m => simp [Fragment.translateBlock, ownCalls, pvec2_add, Rect.addBlock]; ring
  | box st g m cs =>
    have hm : BoxGeom.marginArea { g with contentRect := g.contentRect.addBlock e } o = g.marginArea (o + ⟨0, e⟩) := by
      simp only [BoxGeom.marginArea, borderArea_down]
    have hs : BoxGeom.strip { g with contentRect := g.contentRect.addBlock e } o = g.strip (o + ⟨0, e⟩) := by
      funext s
      simp only [BoxGeom.strip, borderArea_down]
      rfl
    have he : edgeCall st { g with contentRect := g.contentRect.addBlock e } o = edgeCall st g (o + ⟨0, e⟩) := by
      funext s
      simp only [edgeCall, hs]
      rfl
    simp only [Fragment.translateBlock, ownCalls, hm, backgroundCall, borderArea_down, he]

theorem callsAt_down (o : PVec2 Length) (e : Length) {f : Fragment} (h : f.upright) :
    callsAt o [f.translateBlock e] = (callsAt o [f]).map (DrawCall.move ⟨0, e⟩) := by
  rw [← callsAt_move o ⟨0, e⟩ (fs := [f]) ⟨h, trivial⟩]
  have ho := ownCalls_down o e f
  cases f with
  | text st r t =>
    simp only [callsAt, paintAll, Fragment.translateBlock, paint_text, Trace.andThen, Trace.done, List.append_nil] at ho ⊢
    exact ho
  | box st g m cs =>
    have hc : o + (Fragment.box st { g with contentRect := g.contentRect.addBlock e } m cs).offset =
        o + ⟨0, e⟩ + (Fragment.box st g m cs).offset := by
      simp only [Fragment.offset, Rect.addBlock, pvec2_add, PVec2.mk.injEq]
      constructor <;> ring
    simp only [Fragment.translateBlock] at ho ⊢
    rw [callsAt_box o h, callsAt_box _ h, ho, hc]
  | anonymous r cs m =>
    obtain ⟨rfl, h⟩ := h
    simp only [callsAt, paintAll, Fragment.translateBlock, paint_anonymous] at ho ⊢
    rw [callsAt_own (o + ⟨0, e⟩ + ⟨r.startCorner.inline, r.startCorner.block⟩) h _ (by
        simp only [blockAt, Fragment.offset, Rect.addBlock, pvec2_add, PVec2.mk.injEq]
        constructor <;> ring),
      callsAt_own (o + ⟨0, e⟩ + ⟨r.startCorner.inline, r.startCorner.block⟩) h _ (by
        simp only [blockAt, Fragment.offset, pvec2_add, PVec2.mk.injEq]
        constructor <;> ring)]
    simp only [Trace.andThen, Trace.done, List.append_nil, blockAt, ho]

theorem callsAt_allDown (o : PVec2 Length) (e : Length) : ∀ fs : List Fragment, uprightAll fs →
    callsAt o (fs.map (Fragment.translateBlock e)) = (callsAt o fs).map (DrawCall.move ⟨0, e⟩)
  | [], _ => rfl
  | f :: fs, h => by
    have hf : (f.translateBlock e).upright := by
      have := h.1
      cases f <;> exact this
    rw [List.map_cons, callsAt_cons o hf, callsAt_down o e h.1, callsAt_allDown o e fs h.2,
      callsAt_cons o (fs := fs) h.1, List.map_append]

/-! ## Blocks around -/

theorem edge_higher (g : BoxGeom) (e : Length) (s : Side) : (g.higher e).edge s = g.edge s := by
  cases s <;> rfl

theorem edgeCall_higher (st : Style) (g : BoxGeom) (e : Length) (o : PVec2 Length) (s : Side) :
    (edgeCall st g o s = none ∧ edgeCall st (g.higher e) o s = none) ∨
    ∃ a a', edgeCall st g o s = some a ∧ edgeCall st (g.higher e) o s = some a' ∧ Stretched e a a' := by
  unfold edgeCall
  rw [edge_higher]
  split
  · refine .inr ⟨_, _, rfl, rfl, ?_⟩
    cases s
    · refine .line _ _ _ _ _ _ _ (.inl rfl) (.inl rfl)
    · refine .line _ _ _ _ _ _ _ (.inl rfl) (.inr ?_)
      simp only [BoxGeom.strip, BoxGeom.borderArea, BoxGeom.higher, Prod.mk.injEq]
      exact ⟨rfl, by ring⟩
    · refine .line _ _ _ _ _ _ _ (.inr ?_) (.inr ?_) <;>
      · simp only [BoxGeom.strip, BoxGeom.borderArea, BoxGeom.higher, BoxGeom.edge, Prod.mk.injEq, true_and]
        ring
    · refine .line _ _ _ _ _ _ _ (.inr ?_) (.inl rfl)
      simp only [BoxGeom.strip, BoxGeom.borderArea, BoxGeom.higher, Prod.mk.injEq]
      exact ⟨rfl, by ring⟩
  · exact .inl ⟨rfl, rfl⟩

theorem ownCalls_higher (st : Style) (g : BoxGeom) (m : CollapsedBlockMargins) (cs cs' : List Fragment) (e : Length)
    (o : PVec2 Length) :
    List.Forall₂ (Stretched e) (ownCalls o (.box st g m cs)) (ownCalls o (.box st (g.higher e) m cs')) := by
  simp only [ownCalls]
  refine List.rel_append ?_ (List.rel_append ?_ ?_)
  · refine .cons ?_ .nil
    have h : ((g.higher e).marginArea o).bottom - ((g.higher e).marginArea o).top =
        (g.marginArea o).bottom - (g.marginArea o).top + e := by
      simp only [BoxGeom.marginArea, BoxGeom.borderArea, BoxGeom.higher]
      ring
    rw [h]
    exact .bbox _ _ _ _
  · unfold backgroundCall
    split
    · refine .cons ?_ .nil
      have h : ((g.higher e).borderArea o).bottom - ((g.higher e).borderArea o).top =
          (g.borderArea o).bottom - (g.borderArea o).top + e := by
        simp only [BoxGeom.borderArea, BoxGeom.higher]
        ring
      rw [h]
      exact .rect _ _ _ _ _
    · exact .nil
  · generalize [Side.top, Side.right, Side.bottom, Side.left] = l
    induction l with
    | nil => exact .nil
    | cons s l ih =>
      rcases edgeCall_higher st g e o s with ⟨h1, h2⟩ | ⟨a, a', h1, h2, h3⟩
      · rw [List.filterMap_cons_none h1, List.filterMap_cons_none h2]
        exact ih
      · rw [List.filterMap_cons_some h1, List.filterMap_cons_some h2]
        exact .cons h3 ih

theorem stretched_refl (d : Length) (l : List DrawCall) : List.Forall₂ (Stretched d) l l := by
  induction l with
  | nil => exact .nil
  | cons a l ih => exact .cons (.same a) ih

theorem higher_zero (g : BoxGeom) : g.higher 0 = g := by
  simp [BoxGeom.higher]

theorem translateBlock_none (fs : List Fragment) : fs.map (Fragment.translateBlock 0) = fs := by
  conv_rhs => rw [← List.map_id fs]
  refine List.map_congr_left fun f _ => ?_
  cases f <;> simp [Fragment.translateBlock, Rect.addBlock]

/-- what is painted for contents with an edited paragraph -/
structure DrawnEdit (P P' : List Fragment) (d : Length) (free : Prop) (e : Length) (fs fs' : List Fragment)
    (o v : PVec2 Length) (K K' A R : List DrawCall) : Prop where
  first : callsAt o fs = K ++ callsAt (o + v) P ++ A ++ R
  second : callsAt o fs' = K' ++ callsAt (o + v) P' ++ A.map (DrawCall.move ⟨0, d⟩) ++ R
  around : List.Forall₂ (Stretched d) K K'
  rest : (e = d ∧ R = []) ∨ (e = 0 ∧ ¬ free)

theorem uprightAll_app {a b : List Fragment} : uprightAll (a ++ b) ↔ uprightAll a ∧ uprightAll b := by
  induction a with
  | nil => simp [uprightAll]
  | cons f a ih => simp [uprightAll, ih, and_assoc]

theorem drawn_around {P P' : List Fragment} {d : Length} {around : List Style} {e e' : Length} {cs cs' : List Fragment}
    {s : Style} {g : BoxGeom} {m : CollapsedBlockMargins} {v : PVec2 Length}
    (hv : ∀ o, ∃ K K' A R, DrawnEdit P P' d (∀ s ∈ around, s.val .height = .auto) e cs cs' o v K K' A R)
    (he : s.passesOn e e') (hu : uprightAll cs) (hu' : uprightAll cs') :
    ∃ v, ∀ o, ∃ K K' A R, DrawnEdit P P' d (∀ t ∈ s :: around, t.val .height = .auto) e' [.box s g m cs]
      [.box s (g.higher e') m cs'] o v K K' A R := by
  refine ⟨(Fragment.box s g m cs).offset + v, fun o => ?_⟩
  obtain ⟨K, K', A, R, h1, h2, h3, h4⟩ := hv (o + (Fragment.box s g m cs).offset)
  have hoff : (Fragment.box s (g.higher e') m cs').offset = (Fragment.box s g m cs).offset := rfl
  have hadd : o + ((Fragment.box s g m cs).offset + v) = o + (Fragment.box s g m cs).offset + v := by
    simp only [pvec2_add, PVec2.mk.injEq]
    constructor <;> ring
  have hown : e' = d ∨ e' = 0 := by
    unfold Style.passesOn at he
    rcases h4 with ⟨rfl, -⟩ | ⟨rfl, -⟩ <;> split at he
    · exact .inl he
    · exact .inr he
    · exact he
    · exact .inr he
    · exact .inr he
    · exact .inr (he.elim id id)
  have hst : List.Forall₂ (Stretched d) (ownCalls o (.box s g m cs)) (ownCalls o (.box s (g.higher e') m cs')) := by
    rcases hown with rfl | rfl
    · exact ownCalls_higher _ _ _ _ _ _ _
    · rw [higher_zero]
      exact stretched_refl _ _
  refine ⟨ownCalls o (.box s g m cs) ++ K, ownCalls o (.box s (g.higher e') m cs') ++ K', A, R, ?_, ?_,
    List.rel_append hst h3, ?_⟩
  · rw [callsAt_box o hu, h1, hadd]
    simp
  · rw [callsAt_box o hu', hoff, h2, hadd]
    simp
  · rcases h4 with ⟨rfl, hR⟩ | ⟨rfl, hf⟩
    · unfold Style.passesOn at he
      cases hh : (s.val .height : LengthOrPercentageOrAuto) with
      | auto =>
        rw [hh] at he
        exact .inl ⟨he, hR⟩
      | length l =>
        rw [hh] at he
        refine .inr ⟨he, fun k => ?_⟩
        have := k s (by simp)
        rw [hh] at this
        cases this
      | percentage p =>
        rw [hh] at he
        rcases he with he | he
        · exact .inl ⟨he, hR⟩
        · refine .inr ⟨he, fun k => ?_⟩
          have := k s (by simp)
          rw [hh] at this
          cases this
    · have h0 : e' = 0 := by
        unfold Style.passesOn at he
        split at he
        · exact he
        · exact he
        · exact he.elim id id
      exact .inr ⟨h0, fun k => hf fun t ht => k t (List.mem_cons_of_mem _ ht)⟩

mutual

theorem drawn_flow {P P' : List Fragment} {d : Length} :
    ∀ {around : List Style} {c c' : BlockContainer} {e : Length} {fs fs' : List Fragment},
    EditedFlow P P' d around c c' e fs fs' → uprightAll fs → uprightAll fs' →
    uprightAll P ∧ uprightAll P' ∧
    ∃ v, ∀ o, ∃ K K' A R, DrawnEdit P P' d (∀ s ∈ around, s.val .height = .auto) e fs fs' o v K K' A R
  | _, _, _, _, _, _, .para _ _ _, hu, hu' => by
    refine ⟨hu, hu', ⟨0, 0⟩, fun o => ⟨[], [], [], [], ?_, ?_, .nil, .inl ⟨rfl, rfl⟩⟩⟩ <;>
      simp [pvec2_add]
  | _, _, _, _, _, _, .blocks around A b b' B e before f f' after hA hB h, hu, hu' => by
    obtain ⟨u1, u2⟩ := uprightAll_app.1 hu
    obtain ⟨-, u2'⟩ := uprightAll_app.1 hu'
    obtain ⟨hP, hP', v, hv⟩ := drawn_box h u2.1 u2'.1
    refine ⟨hP, hP', v, fun o => ?_⟩
    obtain ⟨K, K', A, R, h1, h2, h3, h4⟩ := hv o
    have e1 : callsAt o (before ++ f :: after) = callsAt o before ++ (callsAt o [f] ++ callsAt o after) := by
      rw [callsAt_append o _ _ u1, callsAt_cons o u2.1]
    have e2 : callsAt o (before ++ f' :: after.map (Fragment.translateBlock e)) =
        callsAt o before ++ (callsAt o [f'] ++ (callsAt o after).map (DrawCall.move ⟨0, e⟩)) := by
      rw [callsAt_append o _ _ u1, callsAt_cons o u2'.1, callsAt_allDown o e _ u2.2]
    rcases h4 with ⟨rfl, rfl⟩ | ⟨rfl, hf⟩
    · refine ⟨callsAt o before ++ K, callsAt o before ++ K', A ++ callsAt o after, [], ?_, ?_,
        List.rel_append (stretched_refl _ _) h3, .inl ⟨rfl, rfl⟩⟩
      · rw [e1, h1]
        simp
      · rw [e2, h2]
        simp
    · refine ⟨callsAt o before ++ K, callsAt o before ++ K', A, R ++ callsAt o after, ?_, ?_,
        List.rel_append (stretched_refl _ _) h3, .inr ⟨rfl, hf⟩⟩
      · rw [e1, h1]
        simp
      · rw [callsAt_append o _ _ u1, callsAt_cons o u2'.1, translateBlock_none, h2]
        simp

theorem drawn_box {P P' : List Fragment} {d : Length} :
    ∀ {around : List Style} {b b' : BlockLevelBox} {e : Length} {f f' : Fragment},
    EditedBox P P' d around b b' e f f' → f.upright → f'.upright →
    uprightAll P ∧ uprightAll P' ∧
    ∃ v, ∀ o, ∃ K K' A R, DrawnEdit P P' d (∀ s ∈ around, s.val .height = .auto) e [f] [f'] o v K K' A R
  | _, _, _, _, _, _, .same around s c c' e e' g m cs cs' he h, hu, hu' => by
    obtain ⟨hP, hP', v, hv⟩ := drawn_flow h hu hu'
    exact ⟨hP, hP', drawn_around hv he hu hu'⟩
  | _, _, _, _, _, _, .independent around s c c' fl fl' e e' g m cs cs' he h, hu, hu' => by
    obtain ⟨hP, hP', v, hv⟩ := drawn_flow h hu hu'
    exact ⟨hP, hP', drawn_around hv he hu hu'⟩

end

/-! ## Pages -/

theorem ifc_noFloats (E : TextEnv) {st : Style} {ibs : List InlineLevelBox} (ha : inlinesNoAbs ibs)
    {cb : ContainingBlock} (hcb : cb.mode = (.horizontalTb, .ltr)) {rank : Nat} {fc : FlowChildren}
    (h : ifcLayout E st (inlineNoFloats ibs) cb rank [] = .ok (fc, [])) :
    ifcLayout E st ibs cb rank [] = .ok (fc, []) := by
  obtain ⟨fc1, new, h1, h2, -⟩ := sameContainer E
    (same_layout E (BlockContainer.inlineFormattingContext st ibs).depth
      (BlockContainer.inlineFormattingContext st ibs).noFloats.depth).1 (cb := cb) hcb
    (.inlineFormattingContext st ibs) (inlinesNoAbs_sound ibs ha) le_rfl le_rfl rank false
  have k1 : ifcLayout E st ibs cb rank [] = .ok (fc1, [] ++ new) := h1 [] false
  have k2 : ifcLayout E st (inlineNoFloats ibs) cb rank [] = .ok (fc1, [] ++ new.map AbsFragment.noFloats) := h2 [] false
  rw [h, List.nil_append] at k2
  injection k2 with k2
  injection k2 with k2 k3
  rw [k1, k2, List.map_eq_nil_iff.1 k3.symm]
  rfl

mutual

theorem Edited.inlines {st : Style} {ibs ibs' : List InlineLevelBox} : ∀ {around : List Style} {c c' : BlockContainer},
    Edited st ibs ibs' around c c' → noAbs c → noAbs c' → inlinesNoAbs ibs ∧ inlinesNoAbs ibs'
  | _, _, _, .para, h, h' => ⟨h, h'⟩
  | _, _, _, .blocks _ A b b' B hb, h, h' => by
    simp only [noAbs, blocksNoAbs_append, blocksNoAbs] at h h'
    exact hb.inlines h.2.1 h'.2.1

theorem EditedBlock.inlines {st : Style} {ibs ibs' : List InlineLevelBox} :
    ∀ {around : List Style} {b b' : BlockLevelBox},
    EditedBlock st ibs ibs' around b b' → blockNoAbs b → blockNoAbs b' → inlinesNoAbs ibs ∧ inlinesNoAbs ibs'
  | _, _, _, .same _ _ _ _ hc, h, h' => hc.inlines h h'
  | _, _, _, .independent _ _ _ _ _ _ hc, h, h' => hc.inlines h h'

end

/-- C93: if one paragraph of a page without absolutely positioned boxes is edited, then its lines are those of a paragraph
of the same width in the same place, what comes after it is moved down by as much as the paragraph gets higher (but
nothing outside of a block whose height is given), the blocks around it get higher by as much, and nothing else changes. -/
theorem C93_layout (E : TextEnv) {st : Style} {ibs ibs' : List InlineLevelBox} {around : List Style}
    {c c' : BlockContainer} (h : Edited st ibs ibs' around c c') (ha : noAbs c) (ha' : noAbs c') (fl fl' : Bool)
    (size : PVec2 Length) :
    ∃ fs fs' cb rank fc fc' e, rootLayout E (.mk c fl) size = .ok fs ∧ rootLayout E (.mk c' fl') size = .ok fs' ∧
      ifcLayout E st ibs cb rank [] = .ok (fc, []) ∧ ifcLayout E st ibs' cb rank [] = .ok (fc', []) ∧
      EditedFlow fc.fragments fc'.fragments (fc'.blockSize - fc.blockSize) around c c' e fs fs' := by
  obtain ⟨fc, h1, h2⟩ := root_layout E fl ha size (le_max_left c.noFloats.depth c'.noFloats.depth)
  obtain ⟨fc', h1', h2'⟩ := root_layout E fl' ha' size (le_max_right c.noFloats.depth c'.noFloats.depth)
  obtain ⟨P, P', d, e, ⟨cb, rank, p, p', hcb, k, k', rfl, rfl, rfl⟩, -, hE⟩ :=
    bfc_edited (boxEdited E st ibs ibs' _) (boxSolid E _) h ha ha' rfl h1 h1'
  obtain ⟨i, i'⟩ := h.inlines ha ha'
  exact ⟨_, _, cb, rank, p, p', e, h2, h2', ifc_noFloats E i hcb k, ifc_noFloats E i' hcb k', hE⟩

/-- C93 for what is drawn: the marks made before those of the paragraph are the same, except that the blocks around it
get higher; its own marks begin in the same place; those after it are moved down by as much as it gets higher; those
after a block around it whose height is given are the same. -/
theorem C93_drawn (E : TextEnv) {st : Style} {ibs ibs' : List InlineLevelBox} {around : List Style}
    {c c' : BlockContainer} (h : Edited st ibs ibs' around c c') (ha : noAbs c) (ha' : noAbs c') (fl fl' : Bool)
    (size : PVec2 Length) :
    ∃ fs fs' cb rank fc fc' o before before' after rest,
      rootLayout E (.mk c fl) size = .ok fs ∧ rootLayout E (.mk c' fl') size = .ok fs' ∧
      ifcLayout E st ibs cb rank [] = .ok (fc, []) ∧ ifcLayout E st ibs' cb rank [] = .ok (fc', []) ∧
      (paintPage size fs).calls =
        before ++ (paintPage size fc.fragments).calls.map (DrawCall.move o) ++ after ++ rest ∧
      (paintPage size fs').calls =
        before' ++ (paintPage size fc'.fragments).calls.map (DrawCall.move o) ++
          after.map (DrawCall.move ⟨0, fc'.blockSize - fc.blockSize⟩) ++ rest ∧
      List.Forall₂ (Stretched (fc'.blockSize - fc.blockSize)) before before' ∧
      ((∀ s ∈ around, s.val .height = .auto) → rest = []) := by
  obtain ⟨fs, fs', cb, rank, fc, fc', e, h1, h2, h3, h4, hE⟩ := C93_layout E h ha ha' fl fl' size
  obtain ⟨hP, hP', v, hv⟩ := drawn_flow hE (rootLayout_up h1) (rootLayout_up h2)
  obtain ⟨K, K', A, R, k1, k2, k3, k4⟩ := hv ⟨0, 0⟩
  have page : ∀ {fs}, uprightAll fs → (paintPage size fs).calls = callsAt ⟨0, 0⟩ fs := by
    intro fs hf
    rw [paintPage, callsAt_own ⟨0, 0⟩ hf _ rfl]
  refine ⟨fs, fs', cb, rank, fc, fc', v, K, K', A, R, h1, h2, h3, h4, ?_, ?_, k3, ?_⟩
  · rw [page (rootLayout_up h1), page hP, k1, callsAt_move _ _ hP]
  · rw [page (rootLayout_up h2), page hP', k2, callsAt_move _ _ hP']
  · intro k
    rcases k4 with ⟨-, k4⟩ | ⟨-, k4⟩
    · exact k4
    · exact absurd k k4

/-- a page with a paragraph between two others, all in a block that is followed by one more -/
def editedPage (around : BlockContainer → BlockLevelBox) (bs : List InlineLevelBox) : BlockContainer :=
  .blockLevelBoxes ([] ++ around (.blockLevelBoxes ([appendLines [appendWords "ab"]] ++
    appendLines bs :: [appendLines [appendWords "cd"]])) :: [appendLines [appendWords "ef"]])

/-- a block with padding -/
def editedFrame (c : BlockContainer) : BlockLevelBox :=
  .sameFormattingContextBlock (plainStyle.set .paddingTop (.length 3)) c

example : Edited plainStyle [appendWords "gh"] [appendWords "gh ij kl"]
    [plainStyle.set .paddingTop (.length 3), plainStyle.set .marginTop (.length 7)]
    (editedPage editedFrame [appendWords "gh"]) (editedPage editedFrame [appendWords "gh ij kl"]) :=
  .blocks _ _ _ _ _ (.same _ _ _ _ (.blocks _ _ _ _ _ (.same _ _ _ _ .para)))

/-- in a block of any height, all that follows is moved down by the height of one line … -/
example : writtenAt ⟨55, 100⟩ (editedPage editedFrame [appendWords "gh"]) =
      [("ab", 0, 118 / 5), ("gh", 0, 249 / 5), ("cd", 0, 76), ("ef", 0, 511 / 5)] ∧
    writtenAt ⟨55, 100⟩ (editedPage editedFrame [appendWords "gh ij kl"]) =
      [("ab", 0, 118 / 5), ("gh ij", 0, 249 / 5), ("kl", 0, 69), ("cd", 0, 76 + 96 / 5), ("ef", 0, 511 / 5 + 96 / 5)] := by
  decide +kernel

/-- … in one of a given height, what follows in it is moved, and what follows it is not -/
example : writtenAt ⟨55, 100⟩ (editedPage appendTall [appendWords "gh"]) =
      [("ab", 0, 103 / 5), ("gh", 0, 234 / 5), ("cd", 0, 73), ("ef", 0, 338 / 5)] ∧
    writtenAt ⟨55, 100⟩ (editedPage appendTall [appendWords "gh ij kl"]) =
      [("ab", 0, 103 / 5), ("gh ij", 0, 234 / 5), ("kl", 0, 66), ("cd", 0, 73 + 96 / 5), ("ef", 0, 338 / 5)] := by
  decide +kernel

end Sinab
