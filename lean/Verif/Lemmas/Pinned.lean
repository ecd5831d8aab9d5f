import Verif.Lemmas.Stands

/-! What an absolutely positioned box looks like does not depend on where it stands in the source (C98). -/

namespace Sinab

open Sinab.Append Horizontal
open Vertical (widthIn heightIn spaceIn)

/-! ## Layout of an absolutely positioned box -/

/-- layout of an absolutely positioned box does not depend on how deep it stands -/
theorem absLayout_same (E : TextEnv) {n m : Nat} {a : AbsFragment} (hs : a.contents.sound) (hn : a.contents.depth + 1 ≤ n)
    (hm : a.contents.depth + 1 ≤ m) {cb : DefiniteContainingBlock} (hcb : cb.mode = (.horizontalTb, .ltr)) :
    absLayout E n a cb = absLayout E m a cb := by
  have hp : AbsPruned a a := ⟨.refl _, rfl, rfl, rfl, rfl, rfl⟩
  obtain ⟨f, f', h1, h2, h3⟩ := (pruned_layout E n m).2.1 a a cb hp hs hn hm hcb
  obtain ⟨g, g', k1, k2, k3⟩ := (pruned_layout E m n).2.1 a a cb hp hs hm hn hcb
  have e1 := h1.symm.trans k2
  have e2 := h2.symm.trans k1
  cases e1
  cases e2
  rw [h1, h2, h3.antisymm k3]

theorem offsetsOf_given {s e : LengthOrPercentageOrAuto} {o o' : AbsOffsets} (h : OffsetsOf s e o) (h' : OffsetsOf s e o')
    (hg : s ≠ .auto ∨ e ≠ .auto) : o' = o := by
  have inj : ∀ v w : LengthOrPercentage, v.given = w.given → v = w := by
    intro v w e
    cases v <;> cases w <;> cases e <;> rfl
  have na : ∀ v : LengthOrPercentage, v.given ≠ .auto := by
    intro v
    cases v <;> simp [LengthOrPercentage.given]
  generalize hs : s = s1 at h'
  generalize he : e = e1 at h'
  cases h with
  | neither v => simp at hg
  | start v =>
    cases h' with
    | neither w => exact absurd hs (na _)
    | start w => rw [inj _ _ hs]
    | «end» w => exact absurd hs (na _)
    | both w x => exact absurd he.symm (na _)
  | «end» v =>
    cases h' with
    | neither w => exact absurd he (na _)
    | start w => exact absurd he (na _)
    | «end» w => rw [inj _ _ he]
    | both w x => exact absurd hs.symm (na _)
  | both v w =>
    cases h' with
    | neither w => exact absurd hs (na _)
    | start w => exact absurd he (na _)
    | «end» w => exact absurd hs (na _)
    | both w x => rw [inj _ _ hs, inj _ _ he]

/-- Layout of an absolutely positioned box that is held at the left or at the right gives the same everywhere, up to the
height if it is held neither at the top nor at the bottom. -/
theorem absLayout_pinned (E : TextEnv) {n : Nat} {a a' : AbsFragment} {cb : DefiniteContainingBlock} (ha : ByStyle a)
    (ha' : ByStyle a') (hb : a'.box = a.box) (hg : a.style.val .left ≠ .auto ∨ a.style.val .right ≠ .auto)
    {f f' : Fragment} (h : absLayout E n a cb = .ok f) (h' : absLayout E n a' cb = .ok f') :
    ∃ y, f' = f.translateBlock y ∧ (a.style.val .top ≠ .auto ∨ a.style.val .bottom ≠ .auto → y = 0) := by
  obtain ⟨st, c, rank, is, iw, bs, bh⟩ := a
  obtain ⟨st', c', rank', is', iw', bs', bh'⟩ := a'
  simp only [AbsFragment.box, Prod.mk.injEq] at hb
  obtain ⟨rfl, rfl⟩ := hb
  obtain ⟨i, b, w, k⟩ := ha
  obtain ⟨i', b', w', k'⟩ := ha'
  simp only at i b w k i' b' w' k' hg
  subst w k w' k'
  obtain rfl := offsetsOf_given i i' hg
  cases n with
  | zero => cases h
  | succ n =>
    rw [absLayout] at h h'
    by_cases hv : st'.val .top ≠ .auto ∨ st'.val .bottom ≠ .auto
    · obtain rfl := offsetsOf_given b b' hv
      refine ⟨0, ?_, fun _ => rfl⟩
      have e : absLayoutWith E (boxLayout E n) (absLayout E n)
          ⟨st', c', rank', is', st'.val .width, bs', st'.val .height⟩ cb = absLayoutWith E (boxLayout E n) (absLayout E n)
          ⟨st', c', rank, is', st'.val .width, bs', st'.val .height⟩ cb := rfl
      rw [e, h] at h'
      cases h'
      cases f <;> simp [Fragment.translateBlock, Rect.addBlock]
    · have hv' : st'.val .top = .auto ∧ st'.val .bottom = .auto := by
        constructor
        · by_contra hh
          exact hv (.inl hh)
        · by_contra hh
          exact hv (.inr hh)
      rw [hv'.1, hv'.2] at b b'
      have auto : ∀ x z o, OffsetsOf x z o → x = .auto → z = .auto → ∃ v, o = .staticStart v := by
        intro x z o ho hx hz
        cases ho with
        | neither v => exact ⟨v, rfl⟩
        | start v => cases v <;> simp [LengthOrPercentage.given] at hx
        | «end» v => cases v <;> simp [LengthOrPercentage.given] at hz
        | both v w => cases w <;> simp [LengthOrPercentage.given] at hz
      obtain ⟨v, rfl⟩ := auto _ _ _ b rfl rfl
      obtain ⟨v', rfl⟩ := auto _ _ _ b' rfl rfl
      refine ⟨v' - v, ?_, fun hh => absurd hh hv⟩
      unfold absLayoutWith at h h'
      simp only at h h'
      split at h
      · cases h
      · rename_i hm
        rw [if_neg hm] at h'
        obtain ⟨⟨fc, o⟩, h1, h⟩ := bind_eq_ok.1 h
        obtain ⟨⟨fc', o'⟩, h1', h'⟩ := bind_eq_ok.1 h'
        have e := h1.symm.trans h1'
        cases e
        obtain ⟨ch, h2, h⟩ := bind_eq_ok.1 h
        obtain ⟨ch', h2', h'⟩ := bind_eq_ok.1 h'
        have e := h2.symm.trans h2'
        cases e
        cases h
        cases h'
        simp only [Fragment.translateBlock, Rect.addBlock, absSizes, solveAxis, AbsSizes.contentRect, AbsSizes.pb]
        simp
        ring

/-! ## Among the fragments of its containing block -/

theorem forall₂_split {α β : Type} {R : α → β → Prop} {x : α} : ∀ {as : List α} {bs : List β}, List.Forall₂ R as bs → x ∈ as →
    ∃ pre y post, bs = pre ++ y :: post ∧ R x y
  | _, _, .cons (a := a) (b := b) h hs, hx => by
    rcases List.mem_cons.1 hx with rfl | hx
    · exact ⟨[], b, _, rfl, h⟩
    · obtain ⟨pre, y, post, rfl, k⟩ := forall₂_split hs hx
      exact ⟨b :: pre, y, post, rfl, k⟩

theorem Displays.anonymous {f : Fragment} {d : PVec2 Length} {cs : List Fragment} (h : Displays f d cs) (r : Rect Length)
    (m : Mode) : Displays f ⟨r.startCorner.inline + d.x, r.startCorner.block + d.y⟩ [.anonymous r cs m] := by
  intro hu
  obtain ⟨rfl, hc⟩ := hu.1
  obtain ⟨h1, h2⟩ := h hc
  refine ⟨h1, fun o => ?_⟩
  obtain ⟨pre, post, k⟩ := h2 (o + ⟨r.startCorner.inline, r.startCorner.block⟩)
  refine ⟨ownCalls o (.anonymous r cs (.horizontalTb, .ltr)) ++ pre, post, ?_⟩
  have e1 : o + ⟨r.startCorner.inline + d.x, r.startCorner.block + d.y⟩ =
      o + ⟨r.startCorner.inline, r.startCorner.block⟩ + d := by
    simp only [pvec2_add, PVec2.mk.injEq]
    constructor <;> ring
  have e2 : callsAt o [.anonymous r cs (.horizontalTb, .ltr)] = ownCalls o (.anonymous r cs (.horizontalTb, .ltr)) ++
      callsAt (o + ⟨r.startCorner.inline, r.startCorner.block⟩) cs := by
    simp only [callsAt, paintAll, paint_anonymous]
    rw [callsAt_own (o + ⟨r.startCorner.inline, r.startCorner.block⟩) hc _ (by
      simp only [blockAt, Fragment.offset, pvec2_add, PVec2.mk.injEq]
      constructor <;> ring)]
    simp only [Trace.andThen, Trace.done, List.append_nil, blockAt]
    rfl
  rw [e2, k, e1]
  simp only [List.append_assoc]

/-- what layout of an absolutely positioned box gives in some containing block of this size -/
def PositionedIn (E : TextEnv) (s : Style) (c : Bfc) (size : Vec2 Length) (f : Fragment) : Prop :=
  ∃ n a, a.style = s ∧ a.contents = c ∧ ByStyle a ∧ c.sound ∧ c.depth + 1 ≤ n ∧
    absLayout E n a ⟨size, (.horizontalTb, .ltr)⟩ = .ok f

theorem PositionedIn.unique {E : TextEnv} {s : Style} {c : Bfc} {size : Vec2 Length} {f f' : Fragment}
    (h : PositionedIn E s c size f) (h' : PositionedIn E s c size f') (hg : s.val .left ≠ .auto ∨ s.val .right ≠ .auto) :
    ∃ y, f' = f.translateBlock y ∧ (s.val .top ≠ .auto ∨ s.val .bottom ≠ .auto → y = 0) := by
  obtain ⟨n, a, rfl, rfl, h1, h2, h3, h4⟩ := h
  obtain ⟨m, a', e1, e2, h1', h2', h3', h4'⟩ := h'
  rw [absLayout_same E h2 h3 h3' rfl] at h4
  exact absLayout_pinned E h1 h1' (by simp only [AbsFragment.box, e1, e2]) hg h4 h4'

/-- what is found in contents can be laid out -/
theorem found_ready (E : TextEnv) {n : Nat} {c : BlockContainer} (hs : c.sound) (hd : c.depth ≤ n) {cb : ContainingBlock}
    (hcb : cb.standard) {rank : Nat} {fl coll : Bool} {fc : FlowChildren} {out : List AbsFragment}
    (h : containerLayout E (boxLayout E n) c cb rank [] fl coll = .ok (fc, out)) :
    ∀ a ∈ out, a.contents.sound ∧ a.contents.depth + 1 ≤ n := by
  obtain ⟨fc1, fc2, new, new', h1, h2, h3⟩ := prunedContainer E (pruned_layout E n n).1 (pruned_layout E n n).2.2 hcb
    (.refl c) hs hd hd rank rank coll
  rw [h1] at h
  cases h
  exact fun a ha => (h3.ready a ha).2

/-- the boxes found in contents, laid out in their containing block -/
theorem found_positioned (E : TextEnv) {n : Nat} {c : BlockContainer} (hs : c.sound) (hd : c.depth ≤ n) {cb : ContainingBlock}
    (hcb : cb.standard) {rank : Nat} {fl coll : Bool} {fc : FlowChildren} {out : List AbsFragment}
    (h : containerLayout E (boxLayout E n) c cb rank [] fl coll = .ok (fc, out)) {size : Vec2 Length} {more : List Fragment}
    (hm : List.Forall₂ (fun a f => absLayout E n a ⟨size, (.horizontalTb, .ltr)⟩ = .ok f) out more)
    {s : Style} {d : Bfc} (hh : (s, d) ∈ c.held) : ∃ pre f post, more = pre ++ f :: post ∧ PositionedIn E s d size f := by
  obtain ⟨new, e, h1, h2⟩ := C43_found E n c hs _ _ _ _ _ _ _ h
  rw [List.nil_append] at e
  subst e
  rw [← h1] at hh
  obtain ⟨a, ha, hsd⟩ := List.mem_map.1 hh
  cases hsd
  obtain ⟨pre, f, post, e, k⟩ := forall₂_split hm ha
  have hr := found_ready E hs hd hcb h a ha
  exact ⟨pre, f, post, e, n, a, rfl, rfl, h2 a ha, hr.1, hr.2, k⟩

/-- … in particular those of a page -/
theorem page_positioned (E : TextEnv) {c : BlockContainer} {floats : Bool} (hs : c.sound) {size : PVec2 Length}
    {fs : List Fragment} (h : rootLayout E (.mk c floats) size = .ok fs) {s : Style} {d : Bfc} (hh : (s, d) ∈ c.held) :
    ∃ f, PositionedIn E s d ⟨size.x, size.y⟩ f ∧ Displays f ⟨0, 0⟩ fs := by
  obtain ⟨⟨fc, abs⟩, h1, h⟩ := bind_eq_ok.1 h
  obtain ⟨more, h3, h⟩ := bind_eq_ok.1 h
  cases h
  obtain ⟨⟨fc0, abs0⟩, h2, h1⟩ := bind_eq_ok.1 h1
  cases h1
  obtain ⟨pre, f, post, e, k⟩ := found_positioned E hs le_rfl (by rfl) h2 (layoutAbsEach_forall h3) hh
  refine ⟨f, k, ?_⟩
  have := ((Displays.self f).more pre post).more fc0.fragments []
  rw [e]
  simpa using this

/-! ## An absolutely positioned box that stands alone -/

theorem lone_displays (E : TextEnv) {b : BlockLevelBox} {c : BlockContainer} (h : LoneBlock b c) :
    ∀ (n : Nat) (cb : ContainingBlock) (rank : Nat) (out : List AbsFragment)
      (fl coll : Bool) (fc : FlowChildren), cb.standard → c.sound → c.depth ≤ n →
      containerLayout E (boxLayout E n) c cb rank [] fl coll = .ok (fc, out) →
      b.sound ∧ ∃ f e, LaidOutIn E b cb.inlineSize f ∧ DisplaysOnly f ⟨0, e⟩ fc.fragments := by
  induction h with
  | here =>
    intro n cb rank out fl coll fc hcb hs hd hl
    obtain ⟨f, d, o, fl', e1, e2, e3⟩ := only_child hl
    have hm : b ∈ [b] := by simp
    refine ⟨hs.1, f, d, ⟨n, cb, _, _, fl', o, rfl, hcb, (blockDepth_mem hm).trans hd, e2⟩, ?_⟩
    rw [e1]
    have := (DisplaysOnly.self f).down d
    simp only [zero_add] at this
    exact this
  | same s c hs h ih =>
    intro n cb rank out fl coll fc hcb hso hd hl
    obtain ⟨f, d, o, fl', e1, e2, e3⟩ := only_child hl
    have hm : BlockLevelBox.sameFormattingContextBlock s c ∈ [BlockLevelBox.sameFormattingContextBlock s c] := by simp
    have hd' := (blockDepth_mem hm).trans hd
    cases n with
    | zero => simp [BlockLevelBox.depth] at hd'
    | succ n =>
      rw [boxLayout] at e2
      simp only [boxLayoutWith] at e2
      obtain ⟨fc', g, m, e4, rfl, hg, hx⟩ := inFlow_frameless hs e2
      simp only [BlockLevelBox.depth] at hd'
      obtain ⟨hb, f0, e, k1, k2⟩ := ih n _ _ _ _ _ _ (by rfl) hso.1 (by omega) e4
      refine ⟨hb, f0, g.contentRect.startCorner.block + e + d, k1, ?_⟩
      rw [e1]
      exact (k2.box hs hg hx m).down d
  | independent s c floats hs h ih =>
    intro n cb rank out fl coll fc hcb hso hd hl
    obtain ⟨f, d, o, fl', e1, e2, e3⟩ := only_child hl
    have hm : BlockLevelBox.independent s (.mk c floats) ∈ [BlockLevelBox.independent s (.mk c floats)] := by simp
    have hd' := (blockDepth_mem hm).trans hd
    cases n with
    | zero => simp [BlockLevelBox.depth] at hd'
    | succ n =>
      rw [boxLayout] at e2
      simp only [boxLayoutWith] at e2
      obtain ⟨fc', g, m, e4, rfl, hg, hx⟩ := inFlow_frameless hs e2
      obtain ⟨⟨fc1, a1⟩, e5, e4⟩ := bind_eq_ok.1 e4
      cases e4
      simp only [BlockLevelBox.depth, Bfc.depth] at hd'
      obtain ⟨hb, f0, e, k1, k2⟩ := ih n _ _ _ _ _ _ (by rfl) hso.1 (by omega) e5
      refine ⟨hb, f0, g.contentRect.startCorner.block + e + d, k1, ?_⟩
      rw [e1]
      exact (k2.box hs hg hx m).down d

theorem lone_held {b : BlockLevelBox} {c : BlockContainer} (h : LoneBlock b c) : c.held = b.held := by
  induction h with
  | here => simp [BlockContainer.held, heldAll]
  | same s c hs h ih => simp [BlockContainer.held, heldAll, BlockLevelBox.held, hs.position, ih]
  | independent s c floats hs h ih => simp [BlockContainer.held, heldAll, BlockLevelBox.held, hs.position, ih]

/-- what is seen on a page with nothing but an absolutely positioned box -/
theorem alone_positioned (E : TextEnv) {c : BlockContainer} {floats : Bool} (hs : c.sound) {size : PVec2 Length}
    {fs : List Fragment} {s : Style} {d : Bfc} (hl : LoneBlock (.outOfFlowAbsolutelyPositionedBox s d) c)
    (h : rootLayout E (.mk c floats) size = .ok fs) :
    ∃ f, PositionedIn E s d ⟨size.x, size.y⟩ f ∧ DisplaysOnly f ⟨0, 0⟩ fs := by
  obtain ⟨⟨fc, abs⟩, h1, h⟩ := bind_eq_ok.1 h
  obtain ⟨more, h3, h⟩ := bind_eq_ok.1 h
  cases h
  obtain ⟨⟨fc0, abs0⟩, h2, h1⟩ := bind_eq_ok.1 h1
  cases h1
  have hh : c.held = [(s, d)] := by rw [lone_held hl, BlockLevelBox.held]
  obtain ⟨pre, f, post, e, k⟩ := found_positioned (s := s) (d := d) E hs le_rfl (by rfl) h2 (layoutAbsEach_forall h3) (by
    simp [hh])
  obtain ⟨new, e1, h4, -⟩ := C43_found E _ _ hs _ _ _ _ _ _ _ h2
  have hlen : more.length = 1 := by
    rw [← (layoutAbsEach_forall h3).length_eq, e1, List.nil_append, ← List.length_map (f := fun a => (a.style, a.contents)),
      h4, hh]
    rfl
  have hm : more = [f] := by
    rw [e] at hlen ⊢
    have h0 : pre.length = 0 ∧ post.length = 0 := by
      simp only [List.length_append, List.length_cons] at hlen
      omega
    rw [List.length_eq_zero_iff.1 h0.1, List.length_eq_zero_iff.1 h0.2]
    rfl
  obtain ⟨-, f1, y, ⟨m, cb, rank, a, fl, o, -, hcb, k1, k2⟩, k3⟩ := lone_displays E hl _ _ _ _ _ _ _ (by rfl) hs le_rfl h2
  cases m with
  | zero => simp [BlockLevelBox.depth] at k1
  | succ m =>
    cases k2
    refine ⟨f, k, fun hu => ?_⟩
    obtain ⟨hu1, hu2⟩ := uprightAll_app.1 hu
    rw [hm] at hu2
    refine ⟨hu2.1, fun o => ?_⟩
    obtain ⟨-, k4⟩ := k3 hu1
    have e0 : o + ⟨0, 0⟩ = o := by simp [pvec2_add]
    show (callsAt o (fc0.fragments ++ more)).filter _ = _
    have hmode : cb.mode = (.horizontalTb, .ltr) := hcb
    rw [hm, callsAt_append _ _ _ hu1, List.filter_append, k4, e0, hmode]
    rfl

/-! ## A relatively positioned block as containing block -/

theorem relative_layout {E : TextEnv} {n : Nat} {cb : ContainingBlock} {abs : List AbsFragment} {s : Style}
    {kind : BlockLevelKind} {c : BlockContainer} (hs : c.sound) (hd : c.depth ≤ n) (hrel : s.val .position = Position.relative)
    {contents} (hc : ∀ cb abs coll fc out, contents cb abs coll = .ok (fc, out) →
      ∃ rank fl coll fc0, fc.fragments = fc0.fragments ∧
        containerLayout E (boxLayout E n) c cb rank abs fl coll = .ok (fc0, out))
    {f : Fragment} {out : List AbsFragment} (h : layoutInFlow (absLayout E n) cb abs s kind contents = .ok (f, out))
    {sa : Style} {d : Bfc} (hh : (sa, d) ∈ c.held) :
    ∃ height fa y, PositionedIn E sa d ⟨spaceIn cb.inlineSize (s.val .paddingLeft) + widthIn cb.inlineSize s +
        spaceIn cb.inlineSize (s.val .paddingRight), height⟩ fa ∧
      ∀ x, Displays fa ⟨contentLeft false cb.inlineSize x s - spaceIn cb.inlineSize (s.val .paddingLeft) - x, y⟩ [f] := by
  obtain ⟨_, _, _, _, g0, m0, -, hf0, hx⟩ := inFlow_across h
  have hrel' : Position.isRelativelyPositioned (s.val .position) = true := by rw [hrel]; rfl
  unfold layoutInFlow at h
  simp only at h
  split at h
  · cases h
  · obtain ⟨⟨fc, o⟩, h0, h⟩ := bind_eq_ok.1 h
    obtain ⟨children, h1, h⟩ := bind_eq_ok.1 h
    simp only [hrel', if_true] at h0 h1 h
    obtain ⟨rank, fl, coll, fc0, e1, h2⟩ := hc _ _ _ _ _ h0
    injection h with h
    injection h with h _
    rw [← h] at hf0
    injection hf0 with _ hg _ _
    rw [← hg] at hx
    have hp1 : (inFlowSizes cb s kind).padding.inlineStart = spaceIn cb.inlineSize (s.val .paddingLeft) := by
      rw [← Vertical.space_eq]
      rfl
    have hp2 : (inFlowSizes cb s kind).padding.inlineEnd = spaceIn cb.inlineSize (s.val .paddingRight) := by
      rw [← Vertical.space_eq]
      rfl
    have h3 := inPositioned_holds (g := ⟨⟨⟨0, 0⟩, ⟨_, _⟩⟩, (inFlowSizes cb s kind).padding, ⟨0, 0, 0, 0⟩, ⟨0, 0, 0, 0⟩⟩) h1
    unfold HoldsAbsolute at h3
    simp only at h3
    have hn : o ≠ [] := by
      rintro rfl
      obtain ⟨new, e, h4, -⟩ := C43_found E n c hs _ _ _ _ _ _ _ h2
      rw [List.nil_append] at e
      rw [← h4, ← e] at hh
      cases hh
    rw [if_neg hn, hp1, hp2, Vertical.sizes_width] at h3
    obtain ⟨fs, h4, h5⟩ := h3
    obtain ⟨pre, fa, post, rfl, k⟩ := found_positioned E hs hd (by rfl) h2 h4 hh
    refine ⟨_, fa, (inFlowSizes cb s kind).pb.blockStart + (relativeAdjustement s (inFlowSizes cb s kind).inlineSize
      (inFlowSizes cb s kind).blockSize).block + (-(inFlowSizes cb s kind).padding.blockStart + 0), k, fun x => ?_⟩
    rw [← h, h5, ← (hx x).2]
    have k1 := fun sz g m => ((((Displays.self fa).more pre post).anonymous ⟨⟨-spaceIn cb.inlineSize (s.val .paddingLeft),
      -(inFlowSizes cb s kind).padding.blockStart⟩, sz⟩ (.horizontalTb, .ltr)).more fc.fragments []).box s g m
    simp only [List.append_nil] at k1
    have e2 : ∀ a b : Length, x + a - b - x = a + (-b + 0) := fun a b => by ring
    rw [e2]
    exact k1 _ _ _

end Sinab
