import Verif.Lemmas.AppendBlocks
import Verif.Spec.Edited

/-! Layout of a page in which one paragraph is edited. -/

namespace Sinab

open Sinab.Append

/-- after the first block, placing lower is placing as before and moving down -/
theorem placeFragment_shift {s s1 : PlacementState} {f r : Fragment} (e : Length) (hc : s.collapses = false)
    (h : placeFragment s f = .ok (r, s1)) :
    placeFragment { s with position := s.position + e } f =
        .ok (r.translateBlock e, { s1 with position := s1.position + e }) ∧ s1.collapses = false := by
  cases f with
  | text st r t => cases h
  | anonymous rect cs mode =>
    rw [placeFragment] at h ⊢
    split at h
    · cases h
    · rename_i h1
      split at h
      · cases h
      · rename_i h2
        cases h
        rw [if_neg h1, if_neg h2]
        refine ⟨?_, hc⟩
        simp only [Fragment.translateBlock, Rect.addBlock, add_assoc]
  | box style g m cs =>
    rw [placeFragment] at h ⊢
    simp only [hc, Bool.false_eq_true, if_false] at h ⊢
    split at h
    · rename_i hm
      cases h
      rw [if_pos hm]
      refine ⟨?_, rfl⟩
      simp only [Fragment.translateBlock, Rect.addBlock, add_assoc]
    · rename_i hm
      cases h
      rw [if_neg hm]
      refine ⟨?_, rfl⟩
      simp only [Fragment.translateBlock, Rect.addBlock, add_assoc, Except.ok.injEq, Prod.mk.injEq, true_and]
      congr 1
      ring

theorem placeAll_shift (e : Length) : ∀ (fs rs : List Fragment) (s s1 : PlacementState), s.collapses = false →
    placeAll s fs = .ok (rs, s1) →
    placeAll { s with position := s.position + e } fs =
        .ok (rs.map (Fragment.translateBlock e), { s1 with position := s1.position + e }) ∧ s1.collapses = false
  | [], rs, s, s1, hc, h => by
    cases h
    exact ⟨rfl, hc⟩
  | f :: fs, rs, s, s1, hc, h => by
    obtain ⟨⟨r, s2⟩, h1, h⟩ := bind_eq_ok.1 h
    obtain ⟨⟨rs2, s3⟩, h2, h⟩ := bind_eq_ok.1 h
    cases h
    obtain ⟨a, b⟩ := placeFragment_shift e hc h1
    obtain ⟨a', b'⟩ := placeAll_shift e fs rs2 s2 _ b h2
    refine ⟨?_, b'⟩
    simp only [placeAll, a, a', bind, Except.bind, pure, Except.pure, List.map_cons]

/-- placing a block that is higher -/
theorem placeFragment_higher {s s1 : PlacementState} {st : Style} {g : BoxGeom} {m : CollapsedBlockMargins}
    {cs : List Fragment} {r : Fragment} (e : Length) (cs' : List Fragment) (hm : m.collapsedThrough = false)
    (h : placeFragment s (.box st g m cs) = .ok (r, s1)) :
    ∃ g1, r = .box st g1 m cs ∧ placeFragment s (.box st (g.higher e) m cs') =
      .ok (.box st (g1.higher e) m cs', { s1 with position := s1.position + e }) ∧ s1.collapses = false := by
  rw [placeFragment] at h
  rw [placeFragment]
  simp only [hm, Bool.false_eq_true, if_false] at h ⊢
  split at h
  · split at h
    · cases h
    · rename_i h1 h2
      cases h
      rw [if_pos h1, if_neg h2]
      refine ⟨_, rfl, ?_, rfl⟩
      simp only [BoxGeom.higher, Rect.addBlock, Except.ok.injEq, Prod.mk.injEq, true_and]
      congr 1
      ring
  · rename_i h1
    cases h
    rw [if_neg h1]
    refine ⟨_, rfl, ?_, by simpa using h1⟩
    simp only [BoxGeom.higher, Rect.addBlock, Except.ok.injEq, Prod.mk.injEq, true_and]
    congr 1
    ring

/-- an in-flow block without absolutely positioned boxes -/
theorem inFlow_whole {absL : AbsLayout} {cb : ContainingBlock} {style : Style} {kind : BlockLevelKind}
    {contents : ContainingBlock → List AbsFragment → Bool → Except Panic (FlowChildren × List AbsFragment)}
    {f : Fragment} {out : List AbsFragment} (h : layoutInFlow absL cb [] style kind contents = .ok (f, out))
    (hn : ∀ cb coll fc o, contents cb [] coll = .ok (fc, o) → o = []) :
    ∃ fc, contents ⟨(inFlowSizes cb style kind).inlineSize, (inFlowSizes cb style kind).blockSize, style.writingMode⟩ []
        (inFlowSizes cb style kind).startCollapses = .ok (fc, []) ∧ out = [] ∧
      f = .box style ⟨⟨⟨(inFlowSizes cb style kind).pb.inlineStart +
          (relativeAdjustement style (inFlowSizes cb style kind).inlineSize
            (inFlowSizes cb style kind).blockSize).inline + (inFlowSizes cb style kind).margin.inlineStart,
        (inFlowSizes cb style kind).pb.blockStart +
          (relativeAdjustement style (inFlowSizes cb style kind).inlineSize
            (inFlowSizes cb style kind).blockSize).block⟩,
          ⟨(inFlowSizes cb style kind).inlineSize,
            (inFlowSizes cb style kind).blockSize.autoIs (collapseWithChildren (inFlowSizes cb style kind) fc).2⟩⟩,
          (inFlowSizes cb style kind).padding, (inFlowSizes cb style kind).border, (inFlowSizes cb style kind).margin⟩
        (collapseWithChildren (inFlowSizes cb style kind) fc).1 fc.fragments := by
  unfold layoutInFlow at h
  simp only at h
  split at h
  · cases h
  · obtain ⟨⟨fc, o⟩, h1, h⟩ := bind_eq_ok.1 h
    obtain ⟨children, h2, h⟩ := bind_eq_ok.1 h
    rw [ite_self] at h1
    have ho := hn _ _ _ _ h1
    subst ho
    have hch : children = fc.fragments := by
      split at h2
      · cases h2
        rfl
      · cases h2
        rfl
    subst hch
    cases h
    exact ⟨fc, h1, by rw [ite_self], rfl⟩

/-- contents, and contents that are higher by `e` -/
structure HigherFlow (e : Length) (fc fc' : FlowChildren) : Prop where
  margins : fc'.margins = fc.margins
  apart : fc.margins.collapsedThrough = false
  size : fc'.blockSize = fc.blockSize + e

/-- the lines of the paragraph -/
structure EditedLines (E : TextEnv) (st : Style) (ibs ibs' : List InlineLevelBox) (P P' : List Fragment) (d : Length) :
    Prop where
  lines : ∃ cb rank fc fc', cb.mode = (.horizontalTb, .ltr) ∧
    ifcLayout E st (inlineNoFloats ibs) cb rank [] = .ok (fc, []) ∧
    ifcLayout E st (inlineNoFloats ibs') cb rank [] = .ok (fc', []) ∧ P = fc.fragments ∧ P' = fc'.fragments ∧
    d = fc'.blockSize - fc.blockSize

/-- layout of a box in which a paragraph is edited -/
def BoxEdited (E : TextEnv) (st : Style) (ibs ibs' : List InlineLevelBox) (boxL : BoxLayout) : Prop :=
  ∀ (around : List Style) (b b' : BlockLevelBox) (cb : ContainingBlock) (rank : Nat) (f f' : Fragment)
    (o o' : List AbsFragment), EditedBlock st ibs ibs' around b b' → blockNoAbs b → blockNoAbs b' →
    cb.mode = (.horizontalTb, .ltr) →
    boxL b.noFloats cb rank [] false = .ok (f, o) → boxL b'.noFloats cb rank [] false = .ok (f', o') →
    ∃ P P' d e s g m cs cs', EditedLines E st ibs ibs' P P' d ∧ f = .box s g m cs ∧
      f' = .box s (g.higher e) m cs' ∧ m.collapsedThrough = false ∧
      ∀ g1 : BoxGeom, EditedBox P P' d around b b' e (.box s g1 m cs) (.box s (g1.higher e) m cs')

theorem layoutEach_length {boxL : BoxLayout} {cb : ContainingBlock} : ∀ (bs : List BlockLevelBox) (k : Nat)
    (abs out : List AbsFragment) (fs : List Fragment), layoutEach boxL cb k bs abs = .ok (fs, out) →
    fs.length = bs.length
  | [], _, _, _, _, h => by
    cases h
    rfl
  | b :: bs, k, abs, out, fs, h => by
    obtain ⟨⟨f, o⟩, h1, h⟩ := bind_eq_ok.1 h
    obtain ⟨⟨fs1, o1⟩, h2, h⟩ := bind_eq_ok.1 h
    cases h
    simp [layoutEach_length bs _ _ _ _ h2]

variable {E : TextEnv} {st : Style} {ibs ibs' : List InlineLevelBox} {around : List Style}

theorem container_edited {boxL : BoxLayout} (hL : BoxEdited E st ibs ibs' boxL) (hS : BoxSolid boxL)
    {c c' : BlockContainer} (h : Edited st ibs ibs' around c c') (ha : noAbs c) (ha' : noAbs c')
    {cb : ContainingBlock} (hcb : cb.mode = (.horizontalTb, .ltr)) {rank : Nat} {coll : Bool}
    {fc fc' : FlowChildren} {out out' : List AbsFragment}
    (e : containerLayout E boxL c.noFloats cb rank [] false coll = .ok (fc, out))
    (e' : containerLayout E boxL c'.noFloats cb rank [] false coll = .ok (fc', out')) :
    ∃ P P' d e, EditedLines E st ibs ibs' P P' d ∧ HigherFlow e fc fc' ∧
      EditedFlow P P' d around c c' e fc.fragments fc'.fragments := by
  cases h with
  | para =>
    have o1 := (container_solid hS (noFloats_noAbs _ ha) (noFloats_twice _) e).1
    have o1' := (container_solid hS (noFloats_noAbs _ ha') (noFloats_twice _) e').1
    subst o1 o1'
    have k : ifcLayout E st (inlineNoFloats ibs) cb rank [] = .ok (fc, []) := e
    have k' : ifcLayout E st (inlineNoFloats ibs') cb rank [] = .ok (fc', []) := e'
    have z := ifc_margins k
    refine ⟨_, _, fc'.blockSize - fc.blockSize, _, ⟨cb, rank, fc, fc', hcb, k, k', rfl, rfl, rfl⟩,
      ⟨by rw [z, ifc_margins k'], by rw [z]; rfl, by ring⟩, .para _ _ _⟩
  | blocks _ A b b' B hb =>
    obtain ⟨fs, o, s, h1, h2, h3, h4, -⟩ := children_ok e
    obtain ⟨fs', o', s', h1', h2', h3', h4', -⟩ := children_ok e'
    simp only [blockNoFloats_append, blockNoFloats] at h1 h1'
    obtain ⟨g1, g2, o1, k1, k2, rfl⟩ := layoutEach_append _ _ _ _ _ _ h1
    obtain ⟨g1', g2', o1', k1', k2', rfl⟩ := layoutEach_append _ _ _ _ _ _ h1'
    rw [k1] at k1'
    cases k1'
    obtain ⟨r1, s1, r2, p1, p2, p3⟩ := placeAll_append.1 h2
    obtain ⟨r1', s1', r2', p1', p2', p3'⟩ := placeAll_append.1 h2'
    rw [p1] at p1'
    cases p1'
    simp only [noAbs, blocksNoAbs_append, blocksNoAbs] at ha ha'
    obtain ⟨rfl, -⟩ := layoutEach_solid hS _ _ _ _ (blocksNoFloats_noAbs _ ha.1) (blockNoFloats_twice _) k1
    obtain ⟨⟨f, o2⟩, l1, k2⟩ := bind_eq_ok.1 k2
    obtain ⟨⟨fs2, o3⟩, l2, k2⟩ := bind_eq_ok.1 k2
    cases k2
    obtain ⟨⟨f', o2'⟩, l1', k2'⟩ := bind_eq_ok.1 k2'
    obtain ⟨⟨fs2', o3'⟩, l2', k2'⟩ := bind_eq_ok.1 k2'
    cases k2'
    obtain ⟨rfl, -⟩ := hS _ _ _ _ _ (blockNoFloats_noAbs _ ha.2.1) (boxNoFloats_twice _) l1
    obtain ⟨rfl, -⟩ := hS _ _ _ _ _ (blockNoFloats_noAbs _ ha'.2.1) (boxNoFloats_twice _) l1'
    have l2e : layoutEach boxL cb (0 + (blockNoFloats A).length + 1) (blockNoFloats B) [] = .ok (fs2', _) := l2'
    rw [l2] at l2e
    cases l2e
    obtain ⟨⟨r, s2⟩, m1, p2⟩ := bind_eq_ok.1 p2
    obtain ⟨⟨rs, s3⟩, m2, p2⟩ := bind_eq_ok.1 p2
    cases p2
    obtain ⟨⟨r', s2'⟩, m1', p2'⟩ := bind_eq_ok.1 p2'
    obtain ⟨⟨rs', s3'⟩, m2', p2'⟩ := bind_eq_ok.1 p2'
    cases p2'
    obtain ⟨P, P', d, e, sb, g, m, cs, cs', hP, rfl, rfl, hm, hE⟩ :=
      hL _ _ _ _ _ _ _ _ _ hb ha.2.1 ha'.2.1 hcb l1 l1'
    obtain ⟨gr, rfl, q1, q2⟩ := placeFragment_higher e cs' hm m1
    rw [q1] at m1'
    cases m1'
    obtain ⟨t1, t2⟩ := placeAll_shift e _ _ _ _ q2 m2
    rw [t1] at m2'
    cases m2'
    refine ⟨P, P', d, e, hP, ⟨by rw [h3, h3'], by rw [h3]; exact t2, by rw [h4, h4']⟩, ?_⟩
    rw [p3, p3']
    refine .blocks _ A b b' B e r1 _ _ rs ?_ ?_ (hE gr)
    · rw [placeAll_length p1, layoutEach_length _ _ _ _ _ k1, blockNoFloats_length]
    · rw [placeAll_length m2, layoutEach_length _ _ _ _ _ l2, blockNoFloats_length]

theorem bfc_edited {boxL : BoxLayout} (hL : BoxEdited E st ibs ibs' boxL) (hS : BoxSolid boxL)
    {c c' : BlockContainer} (h : Edited st ibs ibs' around c c') (ha : noAbs c) (ha' : noAbs c')
    {cb : ContainingBlock} (hcb : cb.mode = (.horizontalTb, .ltr)) {rank : Nat}
    {fc fc' : FlowChildren} {out out' : List AbsFragment}
    (e : bfcLayout E boxL (.mk c.noFloats false) cb rank [] = .ok (fc, out))
    (e' : bfcLayout E boxL (.mk c'.noFloats false) cb rank [] = .ok (fc', out')) :
    ∃ P P' d e, EditedLines E st ibs ibs' P P' d ∧ HigherFlow e fc fc' ∧
      EditedFlow P P' d around c c' e fc.fragments fc'.fragments := by
  obtain ⟨⟨fc1, out1⟩, h1, e⟩ := bind_eq_ok.1 e
  obtain ⟨⟨fc1', out1'⟩, h1', e'⟩ := bind_eq_ok.1 e'
  cases e
  cases e'
  obtain ⟨P, P', d, e, hP, hf, hE⟩ := container_edited hL hS h ha ha' hcb h1 h1'
  refine ⟨P, P', d, e, hP, ⟨by simp only [hf.margins], rfl, ?_⟩, hE⟩
  simp only [hf.margins, hf.size]
  ring

theorem inFlowSizes_passesOn (cb : ContainingBlock) (s : Style) (kind : BlockLevelKind) (e : Length) (x y : Length)
    (hy : y = x + e) : ∃ e', s.passesOn e e' ∧
      (inFlowSizes cb s kind).blockSize.autoIs y = (inFlowSizes cb s kind).blockSize.autoIs x + e' := by
  have hw : s.boxSize.block = s.val .height := rfl
  simp only [inFlowSizes, Style.passesOn, hw]
  cases (s.val .height : LengthOrPercentageOrAuto) with
  | auto => exact ⟨e, rfl, hy⟩
  | length l => exact ⟨0, rfl, (add_zero _).symm⟩
  | percentage p =>
    cases cb.blockSize with
    | auto => exact ⟨e, .inl rfl, hy⟩
    | length l => exact ⟨0, .inr rfl, (add_zero _).symm⟩

theorem collapse_higher {s : InFlowSizes} {e : Length} {fc fc' : FlowChildren} (h : HigherFlow e fc fc') :
    (collapseWithChildren s fc').1 = (collapseWithChildren s fc).1 ∧
    (collapseWithChildren s fc).1.collapsedThrough = false ∧
    (collapseWithChildren s fc').2 = (collapseWithChildren s fc).2 + e := by
  refine ⟨by simp only [collapseWithChildren, h.margins], by simp [collapseWithChildren, h.apart], ?_⟩
  simp only [collapseWithChildren, h.margins, h.size]
  split
  · rfl
  · ring

theorem boxEdited (E : TextEnv) (st : Style) (ibs ibs' : List InlineLevelBox) :
    ∀ n, BoxEdited E st ibs ibs' (boxLayout E n)
  | 0 => by
    intro around b b' cb rank f f' o o' _ _ _ _ e
    cases e
  | n + 1 => by
    intro around b b' cb rank f f' o o' hb ha ha' hcb e e'
    rw [boxLayout] at e e'
    cases hb with
    | same around s c c' h =>
      obtain ⟨fc, h1, -, rfl⟩ := inFlow_whole
        (contents := fun cb nested coll => containerLayout E (boxLayout E n) c.noFloats cb rank nested false coll) e
        (fun _ _ _ _ k => (container_solid (boxSolid E n) (noFloats_noAbs c ha) (noFloats_twice c) k).1)
      obtain ⟨fc', h1', -, rfl⟩ := inFlow_whole
        (contents := fun cb nested coll => containerLayout E (boxLayout E n) c'.noFloats cb rank nested false coll) e'
        (fun _ _ _ _ k => (container_solid (boxSolid E n) (noFloats_noAbs c' ha') (noFloats_twice c') k).1)
      obtain ⟨P, P', d, e, hP, hf, hE⟩ := container_edited (boxEdited E st ibs ibs' n) (boxSolid E n) h ha ha' rfl h1 h1'
      obtain ⟨c1, c2, c3⟩ := collapse_higher (s := inFlowSizes cb s .sameFormattingContextBlock) hf
      obtain ⟨e1, d1, d2⟩ := inFlowSizes_passesOn cb s .sameFormattingContextBlock e _ _ c3
      refine ⟨P, P', d, e1, s, _, _, _, _, hP, rfl, ?_, c2, fun g1 => .same around s c c' e e1 g1 _ _ _ d1 hE⟩
      rw [c1, d2]
      rfl
    | independent around s c c' fl fl' h =>
      obtain ⟨fc, h1, -, rfl⟩ := inFlow_whole
        (contents := fun cb nested _ => bfcLayout E (boxLayout E n) (.mk c.noFloats false) cb rank nested) e
        (fun _ _ _ _ k => (bfc_solid (boxSolid E n) (noFloats_noAbs c ha) (noFloats_twice c) k).1)
      obtain ⟨fc', h1', -, rfl⟩ := inFlow_whole
        (contents := fun cb nested _ => bfcLayout E (boxLayout E n) (.mk c'.noFloats false) cb rank nested) e'
        (fun _ _ _ _ k => (bfc_solid (boxSolid E n) (noFloats_noAbs c' ha') (noFloats_twice c') k).1)
      obtain ⟨P, P', d, e, hP, hf, hE⟩ := bfc_edited (boxEdited E st ibs ibs' n) (boxSolid E n) h ha ha' rfl h1 h1'
      obtain ⟨c1, c2, c3⟩ :=
        collapse_higher (s := inFlowSizes cb s .establishesAnIndependentFormattingContext) hf
      obtain ⟨e1, d1, d2⟩ := inFlowSizes_passesOn cb s .establishesAnIndependentFormattingContext e _ _ c3
      refine ⟨P, P', d, e1, s, _, _, _, _, hP, rfl, ?_, c2, fun g1 => .independent around s c c' fl fl' e e1 g1 _ _ _ d1 hE⟩
      rw [c1, d2]
      rfl

end Sinab
