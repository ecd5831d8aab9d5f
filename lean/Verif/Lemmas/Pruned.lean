import Verif.Spec.Pruned
import Verif.Lemmas.BlockLayout
import Verif.Props.Floats
import Verif.Props.Paint

/-! Layout and painting without some boxes that are out of flow (C95). -/

namespace Sinab

/-! ## Soundness -/

mutual

theorem Pruned.sound : ∀ {c c' : BlockContainer}, Pruned c c' → c.sound → c'.sound
  | _, _, .blocks _ _ h, hs => by
    simp only [BlockContainer.sound] at hs ⊢
    exact h.sound hs
  | _, _, .inlines _ _ _ h, hs => by
    simp only [BlockContainer.sound] at hs ⊢
    exact h.sound hs

theorem PrunedBlock.sound : ∀ {b b' : BlockLevelBox}, PrunedBlock b b' → b.sound → b'.sound
  | _, _, .same _ _ _ h, hs => by
    simp only [BlockLevelBox.sound] at hs ⊢
    exact h.sound hs
  | _, _, .independent _ _ _ _ _ h, hs => by
    simp only [BlockLevelBox.sound, Bfc.sound] at hs ⊢
    exact h.sound hs
  | _, _, .absolute _ _ _ _ _ h, hs => by
    simp only [BlockLevelBox.sound, Bfc.sound] at hs ⊢
    exact h.sound hs
  | _, _, .float _ _, hs => hs

theorem PrunedBlocks.sound : ∀ {bs bs' : List BlockLevelBox}, PrunedBlocks bs bs' → blockSound bs → blockSound bs'
  | _, _, .nil, hs => hs
  | _, _, .keep _ _ _ _ h hs, hb => ⟨h.sound hb.1, hs.sound hb.2⟩
  | _, _, .drop _ _ _ _ hs, hb => hs.sound hb.2

theorem PrunedInline.sound : ∀ {b b' : InlineLevelBox}, PrunedInline b b' → b.sound → b'.sound
  | _, _, .text _ _ _, hs => hs
  | _, _, .box _ _ _ _ _ h, hs => by
    simp only [InlineLevelBox.sound] at hs ⊢
    exact h.sound hs
  | _, _, .absolute _ _ _ _ _ h, hs => by
    simp only [InlineLevelBox.sound, Bfc.sound] at hs ⊢
    exact ⟨hs.1, h.sound hs.2⟩
  | _, _, .float _ _, hs => hs

theorem PrunedInlines.sound : ∀ {bs bs' : List InlineLevelBox}, PrunedInlines bs bs' → inlineSound bs → inlineSound bs'
  | _, _, .nil, hs => hs
  | _, _, .keep _ _ _ _ h hs, hb => ⟨h.sound hb.1, hs.sound hb.2⟩
  | _, _, .drop _ _ _ _ hs, hb => hs.sound hb.2

end

/-! ## Fragments -/

mutual

/-- the second fragment is the first one, without some parts outside of the flow -/
inductive Thin : Fragment → Fragment → Prop
  | refl (f : Fragment) : Thin f f
  | box (s : Style) (g : BoxGeom) (m : CollapsedBlockMargins) (cs cs' : List Fragment) (h : ThinAll cs cs') :
    Thin (.box s g m cs) (.box s g m cs')
  | anonymous (r : Rect Length) (m : Mode) (cs cs' : List Fragment) (h : ThinAll cs cs') (h0 : cs = [] → cs' = []) :
    Thin (.anonymous r cs m) (.anonymous r cs' m)

/-- see `Thin` -/
inductive ThinAll : List Fragment → List Fragment → Prop
  | nil : ThinAll [] []
  | keep (f f' : Fragment) (fs fs' : List Fragment) (h : Thin f f') (hs : ThinAll fs fs') : ThinAll (f :: fs) (f' :: fs')
  | drop (f : Fragment) (fs fs' : List Fragment) (h : f.flowPart = []) (hs : ThinAll fs fs') : ThinAll (f :: fs) fs'

end

theorem ThinAll.refl : ∀ fs : List Fragment, ThinAll fs fs
  | [] => .nil
  | f :: fs => .keep _ _ _ _ (.refl f) (ThinAll.refl fs)

theorem ThinAll.append {a a' b b' : List Fragment} (h : ThinAll a a') (h' : ThinAll b b') : ThinAll (a ++ b) (a' ++ b') := by
  induction a generalizing a' with
  | nil => cases h; exact h'
  | cons x a ih =>
    cases h with
    | keep _ _ _ _ h hs => exact .keep _ _ _ _ h (ih hs)
    | drop _ _ _ h hs => exact .drop _ _ _ h (ih hs)

theorem flowParts_append (a b : List Fragment) : flowParts (a ++ b) = flowParts a ++ flowParts b := by
  induction a with
  | nil => rfl
  | cons x a ih => simp [flowParts, ih]

mutual

theorem Thin.flow : ∀ {f f' : Fragment}, Thin f f' → f'.flowPart = f.flowPart
  | _, _, .refl _ => rfl
  | _, _, .box _ _ _ _ _ h => by simp only [Fragment.flowPart, h.flow]
  | _, _, .anonymous _ _ _ _ h _ => by simp only [Fragment.flowPart, h.flow]

theorem ThinAll.flow : ∀ {fs fs' : List Fragment}, ThinAll fs fs' → flowParts fs' = flowParts fs
  | _, _, .nil => rfl
  | _, _, .keep _ _ _ _ h hs => by simp only [flowParts, h.flow, hs.flow]
  | _, _, .drop _ _ _ h hs => by simp only [flowParts, h, hs.flow, List.nil_append]

end

theorem Thin.child {f f' : Fragment} {c : Child} (h : Thin f f') (hc : IsChild f c) : IsChild f' c := by
  cases h with
  | refl => exact hc
  | box =>
    cases hc with
    | box h1 h2 => exact .box h1 h2
  | anonymous r m cs cs' h h0 =>
    cases hc with
    | out h1 =>
      rw [h0 rfl]
      exact .out h1

theorem Thin.origin_eq {f f' : Fragment} (h : Thin f f') : f'.origin = f.origin := by
  cases h <;> rfl

/-! ## Painting -/

theorem andThen_sublist {a a' b b' : Trace} (ha : a.calls.Sublist a'.calls) (hb : b.calls.Sublist b'.calls)
    (hp : a.panic = none) (hp' : a'.panic = none) : (a.andThen b).calls.Sublist (a'.andThen b').calls := by
  unfold Trace.andThen
  rw [hp, hp']
  exact ha.append hb

mutual

theorem Thin.upright : ∀ {f f' : Fragment}, Thin f f' → f.upright → f'.upright
  | _, _, .refl _, hu => hu
  | _, _, .box _ _ _ _ _ h, hu => by
    simp only [Fragment.upright] at hu ⊢
    exact h.upright hu
  | _, _, .anonymous _ _ _ _ h _, hu => by
    simp only [Fragment.upright] at hu ⊢
    exact ⟨hu.1, h.upright hu.2⟩

theorem ThinAll.upright : ∀ {fs fs' : List Fragment}, ThinAll fs fs' → uprightAll fs → uprightAll fs'
  | _, _, .nil, hu => hu
  | _, _, .keep _ _ _ _ h hs, hu => ⟨h.upright hu.1, hs.upright hu.2⟩
  | _, _, .drop _ _ _ _ hs, hu => hs.upright hu.2

end

theorem upright_quiet (cb : PRect Length) {f : Fragment} (hu : f.upright) : (f.paintOnto cb).panic = none := by
  have := (C55_tree_order cb [f] ⟨hu, trivial⟩).1
  simp only [paintAll, Trace.andThen] at this
  split at this
  · assumption
  · exact this

mutual

theorem Thin.paint : ∀ {f f' : Fragment}, Thin f f' → f.upright → ∀ cb : PRect Length,
    (f'.paintOnto cb).calls.Sublist (f.paintOnto cb).calls
  | _, _, .refl _, _, _ => List.Sublist.refl _
  | _, _, .box s g m cs cs' h, hu, cb => by
    rw [paint_box, paint_box, Trace.andThen_calls, Trace.andThen_calls]
    exact (List.Sublist.refl _).append (h.paint hu _)
  | _, _, .anonymous r m cs cs' h _, hu, cb => by
    simp only [Fragment.paintOnto, Trace.after]
    split
    · exact andThen_sublist (List.Sublist.refl _) (h.paint hu.2 _) rfl rfl
    · exact List.Sublist.refl _

theorem ThinAll.paint : ∀ {fs fs' : List Fragment}, ThinAll fs fs' → uprightAll fs → ∀ cb : PRect Length,
    (paintAll cb fs').calls.Sublist (paintAll cb fs).calls
  | _, _, .nil, _, _ => List.Sublist.refl _
  | _, _, .keep _ _ _ _ h hs, hu, cb => by
    simp only [paintAll]
    exact andThen_sublist (h.paint hu.1 cb) (hs.paint hu.2 cb) (upright_quiet cb (h.upright hu.1)) (upright_quiet cb hu.1)
  | _, _, .drop _ _ _ _ hs, hu, cb => by
    simp only [paintAll, Trace.andThen, upright_quiet cb hu.1]
    exact (hs.paint hu.2 cb).trans (List.sublist_append_right _ _)

end

/-! ## Boxes that wait for their containing block -/

/-- the same box, with some boxes inside removed; it is a child at another rank -/
def AbsPruned (a a' : AbsFragment) : Prop :=
  Pruned a.contents.contents a'.contents.contents ∧ a'.style = a.style ∧ a'.inlineStart = a.inlineStart ∧
    a'.inlineSize = a.inlineSize ∧ a'.blockStart = a.blockStart ∧ a'.blockSize = a.blockSize

/-- the second boxes are the first ones, without some of them -/
inductive AbsKept : List AbsFragment → List AbsFragment → Prop
  | nil : AbsKept [] []
  | keep (a a' : AbsFragment) (as as' : List AbsFragment) (h : AbsPruned a a') (hs : AbsKept as as') :
    AbsKept (a :: as) (a' :: as')
  | drop (a : AbsFragment) (as as' : List AbsFragment) (h : a.style.val .position = Position.absolute)
    (hs : AbsKept as as') : AbsKept (a :: as) as'

theorem AbsKept.append {a a' b b' : List AbsFragment} (h : AbsKept a a') (h' : AbsKept b b') :
    AbsKept (a ++ b) (a' ++ b') := by
  induction h with
  | nil => exact h'
  | keep _ _ _ _ h _ ih => exact .keep _ _ _ _ h ih
  | drop _ _ _ h _ ih => exact .drop _ _ _ h ih

theorem AbsPruned.moved {a a' : AbsFragment} (h : AbsPruned a a') (r r' : Nat) (v : Vec2 Length) :
    AbsPruned (a.moved r v) (a'.moved r' v) := by
  obtain ⟨h1, h2, h3, h4, h5, h6⟩ := h
  refine ⟨h1, h2, ?_, h4, ?_, h6⟩
  · simp only [AbsFragment.moved, h3]
  · simp only [AbsFragment.moved, h5]

theorem AbsKept.map {as as' : List AbsFragment} (h : AbsKept as as') (r r' : Nat) (v : Vec2 Length)
    {F F' : AbsFragment → Vec2 Length} (hF : ∀ a ∈ as, F a = v) (hF' : ∀ a ∈ as', F' a = v) :
    AbsKept (as.map fun a => a.moved r (F a)) (as'.map fun a => a.moved r' (F' a)) := by
  induction h with
  | nil => exact .nil
  | keep a a' as as' h _ ih =>
    simp only [List.map_cons, hF a (by simp), hF' a' (by simp)]
    exact .keep _ _ _ _ (h.moved r r' v) (ih (fun b hb => hF b (by simp [hb])) (fun b hb => hF' b (by simp [hb])))
  | drop a as as' h _ ih =>
    exact .drop _ _ _ h (ih (fun b hb => hF b (by simp [hb])) hF')

theorem layoutAbsBox_pruned (st : Style) {c c' : BlockContainer} (fl fl' : Bool) (h : Pruned c c') (v : Vec2 Length)
    (r r' : Nat) : AbsPruned (layoutAbsBox st (.mk c fl) v r) (layoutAbsBox st (.mk c' fl') v r') :=
  ⟨h, rfl, rfl, rfl, rfl, rfl⟩

/-! ## Inline content -/

theorem joinLines_pruned {E : TextEnv} {w : ℚ} (bs : List InlineLevelBox) (x : ℚ) :
    joinLines [[]] (inlineLines E w bs (endPos E w x [[]])) = inlineLines E w bs x := by
  rw [endPos_empty, joinLines_nil_left _ (inlineLines_ne_nil E w bs x)]

theorem InlineLevelBox.isOutOfFlow_lines {b : InlineLevelBox} (h : b.isOutOfFlow) (E : TextEnv) (w x : ℚ) :
    b.linesOf E w x = [[]] := by
  cases b with
  | inlineBox => exact h.elim
  | textRun => exact h.elim
  | outOfFlowAbsolutelyPositionedBox => simp [InlineLevelBox.linesOf]
  | outOfFlowFloatBox => simp [InlineLevelBox.linesOf]

mutual

theorem PrunedInline.lines (E : TextEnv) (w : ℚ) : ∀ {b b' : InlineLevelBox}, PrunedInline b b' → ∀ x : ℚ,
    b'.linesOf E w x = b.linesOf E w x
  | _, _, .text _ _ _, _ => rfl
  | _, _, .box _ _ _ _ _ h, x => by simp only [InlineLevelBox.linesOf, h.lines E w]
  | _, _, .absolute _ _ _ _ _ _, _ => by simp only [InlineLevelBox.linesOf]
  | _, _, .float _ _, _ => rfl

theorem PrunedInlines.lines (E : TextEnv) (w : ℚ) : ∀ {bs bs' : List InlineLevelBox}, PrunedInlines bs bs' → ∀ x : ℚ,
    inlineLines E w bs' x = inlineLines E w bs x
  | _, _, .nil, _ => rfl
  | _, _, .keep _ _ _ _ h hs, x => by simp only [inlineLines, h.lines E w, hs.lines E w]
  | _, _, .drop _ _ _ h hs, x => by
    rw [inlineLines, InlineLevelBox.isOutOfFlow_lines h, joinLines_pruned, hs.lines E w]

end

mutual

theorem PrunedInline.found (E : TextEnv) (w : ℚ) (root : Font) (r r' : Nat) : ∀ {b b' : InlineLevelBox},
    PrunedInline b b' → ∀ G G' : Ghost, G'.erase = G.erase →
      AbsKept (b.found E w root r G) (b'.found E w root r' G')
  | _, _, .text _ _ _, _, _, _ => by simp only [InlineLevelBox.found]; exact .nil
  | _, _, .box s first last bs bs' h, G, G', hG => by
    simp only [InlineLevelBox.found]
    refine h.found E w root r r' _ _ ?_
    simp only [Ghost.erase, Ghost.mk.injEq, and_true] at hG
    obtain ⟨h1, h2, h3⟩ := hG
    simp only [Ghost.start, Ghost.erase, List.map_cons, h1, h2, h3]
    rfl
  | _, _, .absolute s c c' fl fl' h, G, G', hG => by
    have hc : G'.corner E w root s = G.corner E w root s := by rw [← G'.corner_erase, hG, G.corner_erase]
    simp only [InlineLevelBox.found, hc]
    exact .keep _ _ _ _ (layoutAbsBox_pruned s fl fl' h _ r r') .nil
  | _, _, .float _ _, _, _, _ => by simp only [InlineLevelBox.found]; exact .nil

theorem PrunedInlines.found (E : TextEnv) (w : ℚ) (root : Font) (r r' : Nat) : ∀ {bs bs' : List InlineLevelBox},
    PrunedInlines bs bs' → ∀ G G' : Ghost, G'.erase = G.erase →
      AbsKept (inlineFound E w root r bs G) (inlineFound E w root r' bs' G')
  | _, _, .nil, _, _, _ => by simp only [inlineFound]; exact .nil
  | _, _, .keep b b' bs bs' h hs, G, G', hG => by
    have hp : G'.pos E w root = G.pos E w root := by rw [← G'.pos_erase, hG, G.pos_erase]
    simp only [inlineFound, h.lines E w, hp]
    refine (h.found E w root r r' (G.setRem bs) (G'.setRem bs') hG).append (hs.found E w root r r' _ _ ?_)
    rw [Ghost.extend_erase, Ghost.extend_erase]
    exact congrArg (fun g => Ghost.extend g _) hG
  | _, _, .drop b bs bs' h hs, G, G', hG => by
    simp only [inlineFound, InlineLevelBox.isOutOfFlow_lines h, Ghost.extend_empty]
    have key := hs.found E w root r r' (G.setRem bs) G' hG
    cases b with
    | inlineBox => exact h.elim
    | textRun => exact h.elim
    | outOfFlowAbsolutelyPositionedBox st c =>
      simp only [InlineLevelBox.found]
      exact .drop _ _ _ h key
    | outOfFlowFloatBox st c =>
      simp only [InlineLevelBox.found]
      exact key

end

/-! ## Rows of blocks -/

/-- fragments of blocks, with the boxes that wait; the blocks are numbered from `k` and `k'` -/
inductive PrunedRows : Nat → Nat → List Fragment → List Fragment → List AbsFragment → List AbsFragment → Prop
  | nil (k k' : Nat) : PrunedRows k k' [] [] [] []
  | keep (k k' : Nat) (f f' : Fragment) (fs fs' : List Fragment) (n n' ns ns' : List AbsFragment) (h : Thin f f')
    (hn : AbsKept n n') (hr : ∀ a ∈ n, a.treeRank = k) (hr' : ∀ a ∈ n', a.treeRank = k')
    (hs : PrunedRows (k + 1) (k' + 1) fs fs' ns ns') : PrunedRows k k' (f :: fs) (f' :: fs') (n ++ ns) (n' ++ ns')
  | drop (k k' : Nat) (r : Rect Length) (m : Mode) (fs fs' : List Fragment) (n ns ns' : List AbsFragment)
    (hn : AbsKept n []) (hs : PrunedRows (k + 1) k' fs fs' ns ns') :
    PrunedRows k k' (.anonymous r [] m :: fs) fs' (n ++ ns) ns'

theorem PrunedRows.thin {k k' fs fs' ns ns'} (h : PrunedRows k k' fs fs' ns ns') : ThinAll fs fs' := by
  induction h with
  | nil => exact .nil
  | keep _ _ _ _ _ _ _ _ _ _ h _ _ _ _ ih => exact .keep _ _ _ _ h ih
  | drop _ _ _ _ _ _ _ _ _ _ _ ih => exact .drop _ _ _ (by simp [Fragment.flowPart, flowParts]) ih

theorem Thin.place {f f' g : Fragment} {st st' : PlacementState} (h : Thin f f')
    (hp : placeFragment st f = .ok (g, st')) : ∃ g', placeFragment st f' = .ok (g', st') ∧ Thin g g' := by
  cases h with
  | refl => exact ⟨g, hp, .refl g⟩
  | box s gm m cs cs' h =>
    unfold placeFragment at hp ⊢
    simp only at hp ⊢
    split at hp
    · rename_i hc
      split at hp
      · cases hp
      · rename_i h0
        rw [if_pos hc, if_neg h0]
        split at hp
        · rename_i ht
          cases hp
          exact ⟨_, by rw [if_pos ht], .box _ _ _ _ _ h⟩
        · rename_i ht
          cases hp
          refine ⟨_, by simp only [if_neg ht]; rfl, ?_⟩
          exact .box _ _ _ _ _ h
    · rename_i hc
      rw [if_neg hc]
      split at hp
      · rename_i ht
        cases hp
        exact ⟨_, by rw [if_pos ht], .box _ _ _ _ _ h⟩
      · rename_i ht
        cases hp
        exact ⟨_, by rw [if_neg ht], .box _ _ _ _ _ h⟩
  | anonymous r m cs cs' h h0 =>
    unfold placeFragment at hp ⊢
    simp only at hp ⊢
    split at hp
    · cases hp
    · rename_i h1
      have hcs : cs = [] := by simpa using h1
      split at hp
      · cases hp
      · rename_i h2
        cases hp
        rw [h0 hcs, if_neg (by simp), if_neg h2, hcs]
        exact ⟨_, rfl, .refl _⟩

theorem PrunedRows.place {k k' fs fs' ns ns'} (h : PrunedRows k k' fs fs' ns ns') : ∀ {gs : List Fragment}
    {st st' : PlacementState}, placeAll st fs = .ok (gs, st') →
    ∃ gs', placeAll st fs' = .ok (gs', st') ∧ PrunedRows k k' gs gs' ns ns' := by
  induction h with
  | nil k k' =>
    intro gs st st' hp
    cases hp
    exact ⟨[], rfl, .nil _ _⟩
  | keep k k' f f' fs fs' n n' ns ns' h hn hr hr' _ ih =>
    intro gs st st' hp
    simp only [placeAll, bind_eq_ok] at hp
    obtain ⟨⟨g, st1⟩, h1, ⟨gs1, st2⟩, h2, h3⟩ := hp
    cases h3
    obtain ⟨g', h4, h5⟩ := h.place h1
    obtain ⟨gs', h6, h7⟩ := ih h2
    refine ⟨g' :: gs', ?_, .keep _ _ _ _ _ _ _ _ _ _ h5 hn hr hr' h7⟩
    simp only at h6
    simp [placeAll, h4, h6, bind, Except.bind, pure, Except.pure]
  | drop k k' r m fs fs' n ns ns' hn _ ih =>
    intro gs st st' hp
    simp only [placeAll, bind_eq_ok] at hp
    obtain ⟨⟨g, st1⟩, h1, ⟨gs1, st2⟩, h2, h3⟩ := hp
    cases h3
    unfold placeFragment at h1
    simp only [List.isEmpty_nil, Bool.true_eq_false, if_false] at h1
    split at h1
    · cases h1
    · cases h1
      obtain ⟨gs', h6, h7⟩ := ih h2
      exact ⟨gs', h6, .drop _ _ _ _ _ _ _ _ _ hn h7⟩

theorem PrunedRows.adjust {k k' gs gs' ns ns'} (h : PrunedRows k k' gs gs' ns ns') (r r' : Nat) :
    ∀ P P' : List Fragment, P.length = k → P'.length = k' →
    AbsKept (ns.map fun a => a.moved r (((P ++ gs)[a.treeRank]?.map Fragment.origin).getD Vec2.zero))
      (ns'.map fun a => a.moved r' (((P' ++ gs')[a.treeRank]?.map Fragment.origin).getD Vec2.zero)) := by
  induction h with
  | nil => intros; exact .nil
  | keep k k' f f' fs fs' n n' ns ns' h hn hr hr' _ ih =>
    intro P P' hP hP'
    rw [List.map_append, List.map_append]
    refine AbsKept.append ?_ ?_
    · refine hn.map r r' f.origin ?_ ?_
      · intro a ha
        rw [hr a ha, ← hP]
        simp
      · intro a ha
        rw [hr' a ha, ← hP', ← h.origin_eq]
        simp
    · have := ih (P ++ [f]) (P' ++ [f']) (by simp [hP]) (by simp [hP'])
      simpa only [List.append_assoc, List.singleton_append] using this
  | drop k k' rc m fs fs' n ns ns' hn _ ih =>
    intro P P' hP hP'
    rw [List.map_append, ← List.nil_append (List.map _ ns')]
    refine AbsKept.append ?_ ?_
    · generalize he : ([] : List AbsFragment) = e at hn
      clear ih
      induction hn with
      | nil => exact .nil
      | keep => cases he
      | drop a as as' h _ ih => exact .drop _ _ _ h (ih he)
    · have := ih (P ++ [.anonymous rc [] m]) P' (by simp [hP]) hP'
      simpa only [List.append_assoc, List.singleton_append] using this

/-! ## Both layouts -/

/-- `boxL`, and `boxL'` for what is left of a box -/
def PrunedBoxes (n m : Nat) (boxL boxL' : BoxLayout) : Prop :=
  ∀ b b' cb rank rank', PrunedBlock b b' → b.sound → b.depth ≤ n → b'.depth ≤ m → ContainingBlock.standard cb →
    ∃ f f' new new', (∀ abs fl, boxL b cb rank abs fl = .ok (f, abs ++ new)) ∧
      (∀ abs fl, boxL' b' cb rank' abs fl = .ok (f', abs ++ new')) ∧
      (∃ c, IsChild f c) ∧ Thin f f' ∧ AbsKept new new' ∧ AbsReady n rank new ∧ AbsReady m rank' new'

/-- `absL`, and `absL'` for what is left of a box -/
def PrunedAbs (n m : Nat) (absL absL' : AbsLayout) : Prop :=
  ∀ (a a' : AbsFragment) (cb : DefiniteContainingBlock), AbsPruned a a' → a.contents.sound →
    a.contents.depth + 1 ≤ n → a'.contents.depth + 1 ≤ m → cb.mode = (.horizontalTb, .ltr) →
    ∃ f f', absL a cb = .ok f ∧ absL' a' cb = .ok f' ∧ Thin f f'

/-- a box that is removed leaves nothing but a place, and waits for its containing block if it is absolutely positioned -/
def BoxOut (n : Nat) (boxL : BoxLayout) : Prop :=
  ∀ b cb rank, BlockLevelBox.sound b → b.isOutOfFlow → b.depth ≤ n → ContainingBlock.standard cb →
    ∃ r new, (∀ abs fl, boxL b cb rank abs fl = .ok (.anonymous r [] cb.mode, abs ++ new)) ∧ r.size.block = 0 ∧
      AbsKept new [] ∧ AbsReady n rank new

/-- every absolutely positioned box gives a box with its style -/
def AbsStyled (n : Nat) (absL : AbsLayout) : Prop :=
  ∀ (a : AbsFragment) (cb : DefiniteContainingBlock), a.contents.sound → a.contents.depth + 1 ≤ n →
    cb.mode = (.horizontalTb, .ltr) → ∃ g m cs, absL a cb = .ok (.box a.style g m cs)

theorem prunedLaidOut {n m : Nat} {boxL boxL' : BoxLayout} (hb : PrunedBoxes n m boxL boxL') (ho : BoxOut n boxL)
    {cb : ContainingBlock} (hcb : cb.standard) {bs bs' : List BlockLevelBox} (h : PrunedBlocks bs bs') :
    ∀ (k k' : Nat), blockSound bs → blockDepth bs ≤ n → blockDepth bs' ≤ m →
    ∃ fs fs' new new' cs cs', LaidOut boxL cb k bs fs new ∧ LaidOut boxL' cb k' bs' fs' new' ∧
      List.Forall₂ IsChild fs cs ∧ List.Forall₂ IsChild fs' cs' ∧ PrunedRows k k' fs fs' new new' ∧
      (∀ a ∈ new, a.treeRank < k + bs.length ∧ a.contents.sound ∧ a.contents.depth + 1 ≤ n) ∧
      (∀ a ∈ new', a.treeRank < k' + bs'.length ∧ a.contents.sound ∧ a.contents.depth + 1 ≤ m) := by
  induction bs generalizing bs' with
  | nil =>
    cases h
    intro k k' _ _ _
    exact ⟨[], [], [], [], [], [], .nil, .nil, .nil, .nil, .nil _ _, by simp, by simp⟩
  | cons b bs ih =>
    intro k k' hs hd hd'
    cases h with
    | keep _ b' _ bs' hbb hbs =>
      simp only [blockDepth, max_le_iff] at hd hd'
      obtain ⟨f, f', new, new', h1, h1', ⟨c, h2⟩, ht, hk, h3, h3'⟩ := hb b b' cb k k' hbb hs.1 hd.1 hd'.1 hcb
      obtain ⟨fs, fs', news, news', cs, cs', h4, h4', h5, h5', h6, h7, h7'⟩ := ih hbs (k + 1) (k' + 1) hs.2 hd.2 hd'.2
      refine ⟨f :: fs, f' :: fs', new ++ news, new' ++ news', c :: cs, c :: cs', .cons h1 h4, .cons h1' h4', .cons h2 h5,
        .cons (ht.child h2) h5', .keep _ _ _ _ _ _ _ _ _ _ ht hk (fun a ha => (h3 a ha).1) (fun a ha => (h3' a ha).1) h6,
        ?_, ?_⟩
      · intro a ha
        simp only [List.length_cons]
        rcases List.mem_append.1 ha with ha | ha
        · have e1 := h3 a ha
          exact ⟨by have := e1.1; omega, e1.2⟩
        · have := h7 a ha
          exact ⟨by omega, this.2⟩
      · intro a ha
        simp only [List.length_cons]
        rcases List.mem_append.1 ha with ha | ha
        · have e1 := h3' a ha
          exact ⟨by have := e1.1; omega, e1.2⟩
        · have := h7' a ha
          exact ⟨by omega, this.2⟩
    | drop _ _ _ hbo hbs =>
      simp only [blockDepth, max_le_iff] at hd
      obtain ⟨r, new, h1, h2, hk, h3⟩ := ho b cb k hs.1 hbo hd.1 hcb
      obtain ⟨fs, fs', news, news', cs, cs', h4, h4', h5, h5', h6, h7, h7'⟩ := ih hbs (k + 1) k' hs.2 hd.2 hd'
      refine ⟨.anonymous r [] cb.mode :: fs, fs', new ++ news, news', none :: cs, cs', .cons h1 h4, h4', .cons (.out h2) h5,
        h5', .drop _ _ _ _ _ _ _ _ _ hk h6, ?_, h7'⟩
      intro a ha
      simp only [List.length_cons]
      rcases List.mem_append.1 ha with ha | ha
      · have e1 := h3 a ha
        exact ⟨by have := e1.1; omega, e1.2⟩
      · have := h7 a ha
        exact ⟨by omega, this.2⟩

/-- the contents of a box, and what is left of them -/
structure PrunedChildren (n m rank rank' : Nat) (fc fc' : FlowChildren) (new new' : List AbsFragment) : Prop where
  blockSize : fc'.blockSize = fc.blockSize
  margins : fc'.margins = fc.margins
  thin : ThinAll fc.fragments fc'.fragments
  kept : AbsKept new new'
  ready : AbsReady n rank new
  ready' : AbsReady m rank' new'
  good : fc.margins.Good

theorem blockChildren_of_laidOut {boxL : BoxLayout} {cb : ContainingBlock} {bs : List BlockLevelBox} {fs gs : List Fragment}
    {new adj : List AbsFragment} {st' : PlacementState} {rank : Nat} {coll : Bool} (h1 : LaidOut boxL cb 0 bs fs new)
    (h5 : placeAll (PlacementState.start coll) fs = .ok (gs, st'))
    (hadj : adjustStaticPositions gs rank new = .ok adj) (abs : List AbsFragment) (fl : Bool) :
    layoutBlockLevelChildren boxL bs cb rank abs fl coll =
      .ok (⟨gs, st'.position, ⟨st'.collapses, st'.startMargin, st'.currentMargin⟩⟩, abs ++ adj) := by
  unfold layoutBlockLevelChildren
  cases fl with
  | true =>
    simp only [if_true, h1.layoutAndPlaceEach abs h5, bind, Except.bind]
    rw [List.drop_left, hadj]
    simp [pure, Except.pure]
  | false =>
    simp only [Bool.false_eq_true, if_false, h1.layoutEach abs, bind, Except.bind, h5, pure, Except.pure]
    rw [List.drop_left, hadj]
    simp

theorem prunedContainer (E : TextEnv) {n m : Nat} {boxL boxL' : BoxLayout} (hb : PrunedBoxes n m boxL boxL')
    (ho : BoxOut n boxL) {cb : ContainingBlock} (hcb : cb.standard) {c c' : BlockContainer} (h : Pruned c c')
    (hs : c.sound) (hd : c.depth ≤ n) (hd' : c'.depth ≤ m) (rank rank' : Nat) (coll : Bool) :
    ∃ fc fc' new new', (∀ abs fl, containerLayout E boxL c cb rank abs fl coll = .ok (fc, abs ++ new)) ∧
      (∀ abs fl, containerLayout E boxL' c' cb rank' abs fl coll = .ok (fc', abs ++ new')) ∧
      PrunedChildren n m rank rank' fc fc' new new' := by
  cases h with
  | blocks bs bs' h =>
    simp only [BlockContainer.depth] at hd hd'
    obtain ⟨fs, fs', new, new', cs, cs', h1, h1', h2, h2', h3, h4, h4'⟩ := prunedLaidOut hb ho hcb h 0 0 hs hd hd'
    obtain ⟨ds, st', h5, h6, h7, _⟩ := placeAll_spec h2 (PlacedInv.init coll) trivial
    obtain ⟨ds', st'', h5', h6', _, _⟩ := placeAll_spec h2' (PlacedInv.init coll) trivial
    obtain ⟨gs', h8, h9⟩ := h3.place h6
    have he := h8.symm.trans h6'
    injection he with he
    injection he with he1 he2
    subst he1 he2
    have hlen : (moveAll fs ds).length = bs.length := by rw [moveAll_length h5, h1.length]
    have hlen' : (moveAll fs' ds').length = bs'.length := by rw [moveAll_length h5', h1'.length]
    have hadj := adjustStaticPositions_ok (moveAll_notText h2 ds) rank new (fun a ha => by
      have := (h4 a ha).1; omega)
    have hadj' := adjustStaticPositions_ok (moveAll_notText h2' ds') rank' new' (fun a ha => by
      have := (h4' a ha).1; omega)
    refine ⟨_, _, _, _, blockChildren_of_laidOut h1 h6 hadj, blockChildren_of_laidOut h1' h8 hadj',
      rfl, rfl, h9.thin, h9.adjust rank rank' [] [] rfl rfl, ?_, ?_, ?_⟩
    · intro a ha
      obtain ⟨b, hb', rfl⟩ := List.mem_map.1 ha
      exact ⟨rfl, (h4 b hb').2⟩
    · intro a ha
      obtain ⟨b, hb', rfl⟩ := List.mem_map.1 ha
      exact ⟨rfl, (h4' b hb').2⟩
    · refine ⟨⟨_, h7.start⟩, ?_⟩
      cases h : st'.collapses with
      | true =>
        refine ⟨[], ?_⟩
        show st'.currentMargin.Is []
        rw [h7.current h]
        exact CollapsedMargin.is_zero
      | false => exact ⟨_, h7.tail h⟩
  | inlines st bs bs' h =>
    simp only [BlockContainer.depth] at hd hd'
    have hs' : inlineSound bs' := h.sound hs
    obtain ⟨_, new, _, h1, h2, _⟩ := ifcLayout_good E st bs cb rank hs
    obtain ⟨_, new', _, h1', h2', _⟩ := ifcLayout_good E st bs' cb rank' hs'
    obtain ⟨L, N, _, ⟨_, e1, e2⟩, e3⟩ := ifcLayout_lines E st bs cb rank [] (inlineSound_absOk _ hs)
    obtain ⟨L', N', _, ⟨_, e1', e2'⟩, e3'⟩ := ifcLayout_lines E st bs' cb rank' [] (inlineSound_absOk _ hs')
    rw [h.lines, ← e1] at e1'
    subst e1'
    have hk : AbsKept N N' := by
      rw [e2, e2']
      exact h.found E _ _ rank rank' _ _ rfl
    have hN : new = N := by
      have := (h1 []).symm.trans e3
      simp only [List.nil_append, Except.ok.injEq, Prod.mk.injEq] at this
      exact this.2
    have hN' : new' = N' := by
      have := (h1' []).symm.trans e3'
      simp only [List.nil_append, Except.ok.injEq, Prod.mk.injEq] at this
      exact this.2
    subst hN hN'
    refine ⟨⟨placeLines E cb (st.val .textAlign) (E.font st) 0 L', pageHeight E (E.font st) L', .zero⟩,
      ⟨placeLines E cb (st.val .textAlign) (E.font st) 0 L', pageHeight E (E.font st) L', .zero⟩,
      new, new', fun abs _ => ?_, fun abs _ => ?_, rfl, rfl, ThinAll.refl _, hk, h2.mono hd, h2'.mono hd', zero_good⟩
    · rw [containerLayout, ifcLayout_abs, e3]
      rfl
    · rw [containerLayout, ifcLayout_abs, e3']
      rfl

theorem prunedBfc (E : TextEnv) {n m : Nat} {boxL boxL' : BoxLayout} (hb : PrunedBoxes n m boxL boxL')
    (ho : BoxOut n boxL) {cb : ContainingBlock} (hcb : cb.standard) (c c' : Bfc) (h : Pruned c.contents c'.contents)
    (hs : c.sound) (hd : c.depth ≤ n) (hd' : c'.depth ≤ m) (rank rank' : Nat) :
    ∃ fc fc' new new', (∀ abs, bfcLayout E boxL c cb rank abs = .ok (fc, abs ++ new)) ∧
      (∀ abs, bfcLayout E boxL' c' cb rank' abs = .ok (fc', abs ++ new')) ∧
      PrunedChildren n m rank rank' fc fc' new new' := by
  obtain ⟨c, fl⟩ := c
  obtain ⟨c', fl'⟩ := c'
  replace h : Pruned c c' := h
  simp only [Bfc.depth] at hd hd'
  obtain ⟨fc, fc', new, new', h1, h1', h2⟩ := prunedContainer E hb ho hcb h hs hd hd' rank rank' false
  refine ⟨⟨fc.fragments, fc.blockSize + fc.margins.«end».solve, ⟨false, fc.margins.start, .zero⟩⟩,
    ⟨fc'.fragments, fc'.blockSize + fc'.margins.«end».solve, ⟨false, fc'.margins.start, .zero⟩⟩,
    new, new', fun abs => ?_, fun abs => ?_, ?_, ?_, h2.thin, h2.kept, h2.ready, h2.ready', h2.good.1,
    ⟨[], CollapsedMargin.is_zero⟩⟩
  · simp only [bfcLayout, Bfc.contents, Bfc.containsFloats, h1, bind, Except.bind, pure, Except.pure]
  · simp only [bfcLayout, Bfc.contents, Bfc.containsFloats, h1', bind, Except.bind, pure, Except.pure]
  · simp only [h2.blockSize, h2.margins]
  · simp only [h2.margins]

theorem prunedAbsEach {n m : Nat} {absL absL' : AbsLayout} (ha : PrunedAbs n m absL absL') (hst : AbsStyled n absL)
    {cb : DefiniteContainingBlock} (hcb : cb.mode = (.horizontalTb, .ltr)) {rank rank' : Nat}
    {as as' : List AbsFragment} (h : AbsKept as as') : AbsReady n rank as → AbsReady m rank' as' →
      ∃ fs fs', layoutAbsEach absL cb as = .ok fs ∧ layoutAbsEach absL' cb as' = .ok fs' ∧ ThinAll fs fs' := by
  induction h with
  | nil => intro _ _; exact ⟨[], [], rfl, rfl, .nil⟩
  | keep a a' as as' h _ ih =>
    intro hr hr'
    have h0 := hr a (by simp)
    have h0' := hr' a' (by simp)
    obtain ⟨f, f', h1, h1', ht⟩ := ha a a' cb h h0.2.1 h0.2.2 h0'.2.2 hcb
    obtain ⟨fs, fs', h2, h2', hts⟩ := ih (fun b hb => hr b (by simp [hb])) (fun b hb => hr' b (by simp [hb]))
    exact ⟨f :: fs, f' :: fs', by simp [layoutAbsEach, h1, h2, bind, Except.bind, pure, Except.pure],
      by simp [layoutAbsEach, h1', h2', bind, Except.bind, pure, Except.pure], .keep _ _ _ _ ht hts⟩
  | drop a as as' h _ ih =>
    intro hr hr'
    have h0 := hr a (by simp)
    obtain ⟨g, mg, cs, h1⟩ := hst a cb h0.2.1 h0.2.2 hcb
    obtain ⟨fs, fs', h2, h2', hts⟩ := ih (fun b hb => hr b (by simp [hb])) hr'
    exact ⟨.box a.style g mg cs :: fs, fs', by simp [layoutAbsEach, h1, h2, bind, Except.bind, pure, Except.pure], h2',
      .drop _ _ _ (by simp [Fragment.flowPart, h]) hts⟩

theorem ThinAll.none {fs : List Fragment} (h : ThinAll fs []) : flowParts fs = [] := h.flow.symm

theorem prunedPositioned {n m : Nat} {absL absL' : AbsLayout} (ha : PrunedAbs n m absL absL') (hst : AbsStyled n absL)
    {rank rank' : Nat} {as as' : List AbsFragment} (h : AbsKept as as') (hr : AbsReady n rank as)
    (hr' : AbsReady m rank' as') {fs fs' : List Fragment} (ht : ThinAll fs fs') (size : Vec2 Length)
    (padding : Sides Length) :
    ∃ out out', inPositionedContainingBlock absL as fs size padding (.horizontalTb, .ltr) = .ok out ∧
      inPositionedContainingBlock absL' as' fs' size padding (.horizontalTb, .ltr) = .ok out' ∧ ThinAll out out' := by
  obtain ⟨gs, gs', h1, h2, h3⟩ := prunedAbsEach ha hst (cb := ⟨((Rect.mk Vec2.zero size).inflate padding).size,
    (.horizontalTb, .ltr)⟩) rfl h hr hr'
  unfold inPositionedContainingBlock
  cases as with
  | nil =>
    cases h
    exact ⟨fs, fs', rfl, rfl, ht⟩
  | cons a as =>
    cases as' with
    | nil =>
      cases h2
      refine ⟨fs ++ [.anonymous ((Rect.mk Vec2.zero size).inflate padding) gs (.horizontalTb, .ltr)], fs',
        by simp only [h1, bind, Except.bind, pure, Except.pure, List.isEmpty_cons, Bool.false_eq_true, if_false], rfl, ?_⟩
      rw [← List.append_nil fs']
      exact ht.append (.drop _ _ _ (by simp [Fragment.flowPart, h3.none]) .nil)
    | cons a' as' =>
      refine ⟨fs ++ [.anonymous ((Rect.mk Vec2.zero size).inflate padding) gs (.horizontalTb, .ltr)],
        fs' ++ [.anonymous ((Rect.mk Vec2.zero size).inflate padding) gs' (.horizontalTb, .ltr)],
        by simp only [h1, bind, Except.bind, pure, Except.pure, List.isEmpty_cons, Bool.false_eq_true, if_false],
        by simp only [h2, bind, Except.bind, pure, Except.pure, List.isEmpty_cons, Bool.false_eq_true, if_false], ?_⟩
      refine ht.append (.keep _ _ _ _ (.anonymous _ _ _ _ h3 ?_) .nil)
      rintro rfl
      cases h3
      rfl

theorem prunedInFlow {n m : Nat} {absL absL' : AbsLayout} (ha : PrunedAbs n m absL absL') (hst : AbsStyled n absL)
    {cb : ContainingBlock} (hcb : cb.standard) (style : Style) (kind : BlockLevelKind) (rank rank' : Nat)
    {fc fc' : FlowChildren} {new new' : List AbsFragment} (hr : PrunedChildren n m rank rank' fc fc' new new') :
    ∃ g children children' out out', ThinAll children children' ∧ AbsKept out out' ∧ AbsReady n rank out ∧
      AbsReady m rank' out' ∧
      (∀ contents, (∀ abs, contents ⟨(inFlowSizes cb style kind).inlineSize,
        (inFlowSizes cb style kind).blockSize, (.horizontalTb, .ltr)⟩ abs
        (inFlowSizes cb style kind).startCollapses = .ok (fc, abs ++ new)) →
        ∀ abs, layoutInFlow absL cb abs style kind contents = .ok (.box style g
          (collapseWithChildren (inFlowSizes cb style kind) fc).1 children, abs ++ out)) ∧
      (∀ contents, (∀ abs, contents ⟨(inFlowSizes cb style kind).inlineSize,
        (inFlowSizes cb style kind).blockSize, (.horizontalTb, .ltr)⟩ abs
        (inFlowSizes cb style kind).startCollapses = .ok (fc', abs ++ new')) →
        ∀ abs, layoutInFlow absL' cb abs style kind contents = .ok (.box style g
          (collapseWithChildren (inFlowSizes cb style kind) fc).1 children', abs ++ out')) := by
  have hm : ¬ (cb.mode ≠ (.horizontalTb, .ltr)) := by
    rw [not_not]; exact hcb
  have hcb' : (Style.writingMode style) = (.horizontalTb, .ltr) := rfl
  have hcol : collapseWithChildren (inFlowSizes cb style kind) fc' =
      collapseWithChildren (inFlowSizes cb style kind) fc := by
    simp only [collapseWithChildren, hr.blockSize, hr.margins]
  cases hp : Position.isRelativelyPositioned (style.val .position) with
  | false =>
    refine ⟨inFlowGeom cb style kind fc, fc.fragments, fc'.fragments, new, new', hr.thin, hr.kept, hr.ready, hr.ready',
      fun contents hc abs => ?_, fun contents hc abs => ?_⟩
    · unfold layoutInFlow
      simp only [hcb', hp, Bool.false_eq_true, if_false, hc, bind, Except.bind, pure, Except.pure]
      rw [if_neg hm]
      rfl
    · unfold layoutInFlow
      simp only [hcb', hp, Bool.false_eq_true, if_false, hc, bind, Except.bind, pure, Except.pure, hcol]
      rw [if_neg hm]
      rfl
  | true =>
    obtain ⟨children, children', h1, h2, h3⟩ := prunedPositioned ha hst hr.kept hr.ready hr.ready' hr.thin
      ⟨(inFlowSizes cb style kind).inlineSize,
        (inFlowSizes cb style kind).blockSize.autoIs (collapseWithChildren (inFlowSizes cb style kind) fc).2⟩
      (inFlowSizes cb style kind).padding
    refine ⟨inFlowGeom cb style kind fc, children, children', [], [], h3, .nil, by simp [AbsReady], by simp [AbsReady],
      fun contents hc abs => ?_, fun contents hc abs => ?_⟩
    · unfold layoutInFlow
      simp only [hcb', hp, if_true, hc, bind, Except.bind, pure, Except.pure, List.nil_append,
        List.append_nil, h1]
      rw [if_neg hm]
      rfl
    · unfold layoutInFlow
      simp only [hcb', hp, if_true, hc, bind, Except.bind, pure, Except.pure, List.nil_append,
        List.append_nil, hcol, h2]
      rw [if_neg hm]
      rfl

theorem prunedBoxLayout (E : TextEnv) {n m : Nat} {boxL boxL' : BoxLayout} {absL absL' : AbsLayout}
    (hb : PrunedBoxes n m boxL boxL') (ho : BoxOut n boxL) (ha : PrunedAbs n m absL absL') (hst : AbsStyled n absL) :
    PrunedBoxes (n + 1) (m + 1) (boxLayoutWith E boxL absL) (boxLayoutWith E boxL' absL') := by
  intro b b' cb rank rank' h hs hd hd' hcb
  cases h with
  | same st c c' h =>
    simp only [BlockLevelBox.depth] at hd hd'
    obtain ⟨fc, fc', new, new', h1, h1', h2⟩ := prunedContainer E hb ho
      (cb := ⟨(inFlowSizes cb st .sameFormattingContextBlock).inlineSize,
        (inFlowSizes cb st .sameFormattingContextBlock).blockSize, (.horizontalTb, .ltr)⟩) rfl h hs
      (by omega) (by omega) rank rank' (inFlowSizes cb st .sameFormattingContextBlock).startCollapses
    obtain ⟨g, children, children', out, out', h3, h4, h5, h5', h6, h6'⟩ :=
      prunedInFlow ha hst hcb st .sameFormattingContextBlock rank rank' h2
    exact ⟨.box st g (collapseWithChildren (inFlowSizes cb st .sameFormattingContextBlock) fc).1 children,
      .box st g (collapseWithChildren (inFlowSizes cb st .sameFormattingContextBlock) fc).1 children', out, out',
      fun abs fl => h6 (fun cb nested coll => containerLayout E boxL c cb rank nested fl coll) (fun abs => h1 abs fl) abs,
      fun abs fl => h6' (fun cb nested coll => containerLayout E boxL' c' cb rank' nested fl coll) (fun abs => h1' abs fl) abs,
      isChild_of_good _ _ _ _ (collapse_good _ _ h2.good), .box _ _ _ _ _ h3, h4, h5.mono (Nat.le_succ n),
      h5'.mono (Nat.le_succ m)⟩
  | independent st c c' fl fl' h =>
    simp only [BlockLevelBox.depth] at hd hd'
    obtain ⟨fc, fc', new, new', h1, h1', h2⟩ := prunedBfc E hb ho
      (cb := ⟨(inFlowSizes cb st .establishesAnIndependentFormattingContext).inlineSize,
        (inFlowSizes cb st .establishesAnIndependentFormattingContext).blockSize,
        (.horizontalTb, .ltr)⟩) rfl (.mk c fl) (.mk c' fl') h hs (by omega) (by omega) rank rank'
    obtain ⟨g, children, children', out, out', h3, h4, h5, h5', h6, h6'⟩ :=
      prunedInFlow ha hst hcb st .establishesAnIndependentFormattingContext rank rank' h2
    exact ⟨.box st g (collapseWithChildren
        (inFlowSizes cb st .establishesAnIndependentFormattingContext) fc).1 children,
      .box st g (collapseWithChildren
        (inFlowSizes cb st .establishesAnIndependentFormattingContext) fc).1 children', out, out',
      fun abs _ => h6 (fun cb nested _ => bfcLayout E boxL (.mk c fl) cb rank nested) h1 abs,
      fun abs _ => h6' (fun cb nested _ => bfcLayout E boxL' (.mk c' fl') cb rank' nested) h1' abs,
      isChild_of_good _ _ _ _ (collapse_good _ _ h2.good), .box _ _ _ _ _ h3, h4, h5.mono (Nat.le_succ n),
      h5'.mono (Nat.le_succ m)⟩
  | absolute st c c' fl fl' h =>
    refine ⟨Fragment.noOp cb.mode, Fragment.noOp cb.mode, [layoutAbsBox st (.mk c fl) Vec2.zero rank],
      [layoutAbsBox st (.mk c' fl') Vec2.zero rank'], fun abs fl => rfl, fun abs fl => rfl, ⟨none, .out rfl⟩, .refl _,
      .keep _ _ _ _ (layoutAbsBox_pruned st fl fl' h _ _ _) .nil, ?_, ?_⟩
    · intro a ha
      rw [List.mem_singleton] at ha
      subst ha
      exact ⟨rfl, hs, hd⟩
    · intro a ha
      rw [List.mem_singleton] at ha
      subst ha
      exact ⟨rfl, h.sound hs, hd'⟩
  | float st c =>
    exact ⟨Fragment.noOp cb.mode, Fragment.noOp cb.mode, [], [], fun abs fl => by simp [boxLayoutWith],
      fun abs fl => by simp [boxLayoutWith], ⟨none, .out rfl⟩, .refl _, .nil, by simp [AbsReady], by simp [AbsReady]⟩

theorem boxOut (E : TextEnv) (n : Nat) (boxL : BoxLayout) (absL : AbsLayout) :
    BoxOut (n + 1) (boxLayoutWith E boxL absL) := by
  intro b cb rank hs ho hd _
  cases b with
  | sameFormattingContextBlock => exact ho.elim
  | independent => exact ho.elim
  | outOfFlowAbsolutelyPositionedBox st c =>
    refine ⟨_, [layoutAbsBox st c Vec2.zero rank], fun abs fl => rfl, rfl, .drop _ _ _ ho .nil, ?_⟩
    intro a ha
    rw [List.mem_singleton] at ha
    subst ha
    exact ⟨rfl, hs, hd⟩
  | outOfFlowFloatBox st c =>
    exact ⟨_, [], fun abs fl => by rw [List.append_nil]; rfl, rfl, .nil, by simp [AbsReady]⟩

theorem absStyled (E : TextEnv) : ∀ n, AbsStyled n (absLayout E n) := by
  intro n a cb hs hd hcb
  obtain ⟨f, hf⟩ := (layout_good E n).2 a cb hs hd hcb
  cases n with
  | zero => cases hf
  | succ n =>
    have h := hf
    rw [absLayout] at h
    unfold absLayoutWith at h
    simp only at h
    split at h
    · cases h
    · obtain ⟨⟨fc, o⟩, h0, h⟩ := bind_eq_ok.1 h
      obtain ⟨cs, h1, h⟩ := bind_eq_ok.1 h
      cases h
      exact ⟨_, _, _, hf⟩

theorem prunedAbsLayout (E : TextEnv) {n m : Nat} {boxL boxL' : BoxLayout} {absL absL' : AbsLayout}
    (hb : PrunedBoxes n m boxL boxL') (ho : BoxOut n boxL) (ha : PrunedAbs n m absL absL') (hst : AbsStyled n absL) :
    PrunedAbs (n + 1) (m + 1) (absLayoutWith E boxL absL) (absLayoutWith E boxL' absL') := by
  intro a a' cb h hs hd hd' hcb
  obtain ⟨fc, fc', new, new', h1, h1', h2⟩ := prunedBfc E hb ho
    (cb := ⟨(absSizes a cb).inlineSize, (absSizes a cb).blockSize, (.horizontalTb, .ltr)⟩) rfl
    a.contents a'.contents h.1 hs (by omega) (by omega) 0 0
  obtain ⟨out, out', h4, h4', h5⟩ := prunedPositioned ha hst h2.kept h2.ready h2.ready' h2.thin
    ((absSizes a cb).contentRect cb ((absSizes a cb).blockSize.autoIs fc.blockSize)).size
    (absSizes a cb).padding
  have hm : ¬ (cb.mode ≠ (.horizontalTb, .ltr)) := by rw [not_not]; exact hcb
  have hcb' : ∀ s : Style, s.writingMode = (.horizontalTb, .ltr) := fun _ => rfl
  obtain ⟨_, e1, e2, e3, e4, e5⟩ := h
  have hsz : absSizes a' cb = absSizes a cb := by
    simp only [absSizes, e1, e2, e3, e4, e5]
  refine ⟨.box a.style ⟨(absSizes a cb).contentRect cb ((absSizes a cb).blockSize.autoIs fc.blockSize),
    (absSizes a cb).padding, (absSizes a cb).border, (absSizes a cb).margin⟩ .zero out,
    .box a.style ⟨(absSizes a cb).contentRect cb ((absSizes a cb).blockSize.autoIs fc.blockSize),
    (absSizes a cb).padding, (absSizes a cb).border, (absSizes a cb).margin⟩ .zero out', ?_, ?_, .box _ _ _ _ _ h5⟩
  · unfold absLayoutWith
    simp only [hcb', h1, bind, Except.bind, List.nil_append, h4, pure, Except.pure]
    rw [if_neg hm]
  · unfold absLayoutWith
    simp only [hsz, e1, hcb', h1', bind, Except.bind, List.nil_append, h2.blockSize, h4', pure, Except.pure]
    rw [if_neg hm]

theorem pruned_layout (E : TextEnv) : ∀ n m, PrunedBoxes n m (boxLayout E n) (boxLayout E m) ∧
    PrunedAbs n m (absLayout E n) (absLayout E m) ∧ BoxOut n (boxLayout E n) := by
  intro n
  induction n with
  | zero =>
    intro m
    refine ⟨?_, ?_, ?_⟩
    · intro b b' cb rank _ _ _ hd
      cases b <;> simp [BlockLevelBox.depth] at hd
    · intro a a' cb _ _ hd
      omega
    · intro b cb rank _ _ hd
      cases b <;> simp [BlockLevelBox.depth] at hd
  | succ n ih =>
    intro m
    cases m with
    | zero =>
      refine ⟨?_, ?_, ?_⟩
      · intro b b' cb rank _ _ _ _ hd
        cases b' <;> simp [BlockLevelBox.depth] at hd
      · intro a a' cb _ _ _ hd
        omega
      · rw [boxLayout]
        exact boxOut E n _ _
    | succ m =>
      rw [boxLayout, absLayout, boxLayout, absLayout]
      exact ⟨prunedBoxLayout E (ih m).1 (ih m).2.2 (ih m).2.1 (absStyled E n),
        prunedAbsLayout E (ih m).1 (ih m).2.2 (ih m).2.1 (absStyled E n), boxOut E n _ _⟩

theorem pruned_root (E : TextEnv) (root root' : Bfc) (h : Pruned root.contents root'.contents) (hs : root.sound)
    (viewport : PVec2 Length) : ∃ fs fs', rootLayout E root viewport = .ok fs ∧ rootLayout E root' viewport = .ok fs' ∧
      ThinAll fs fs' := by
  obtain ⟨hb, ha, ho⟩ := pruned_layout E root.depth root'.depth
  obtain ⟨fc, fc', new, new', h1, h1', h2⟩ := prunedBfc E hb ho
    (cb := ⟨viewport.x, .length viewport.y, (.horizontalTb, .ltr)⟩) rfl root root' h hs le_rfl le_rfl 0 0
  obtain ⟨more, more', h3, h3', h4⟩ := prunedAbsEach ha (absStyled E _)
    (cb := ⟨⟨viewport.x, viewport.y⟩, (.horizontalTb, .ltr)⟩) rfl h2.kept h2.ready h2.ready'
  refine ⟨fc.fragments ++ more, fc'.fragments ++ more', ?_, ?_, h2.thin.append h4⟩
  · simp only [rootLayout, rootLayoutWith, h1, bind, Except.bind, List.nil_append, h3, pure, Except.pure]
  · simp only [rootLayout, rootLayoutWith, h1', bind, Except.bind, List.nil_append, h3', pure, Except.pure]

end Sinab
