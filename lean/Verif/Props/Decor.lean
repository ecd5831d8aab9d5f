import Verif.Lemmas.DecorLayout
import Verif.Props.Supported
import Verif.Props.Read

/-! Backgrounds and borders (C74). -/

namespace Sinab

/-! ## What is drawn -/

/-- what is drawn of backgrounds and borders -/
def drawnLooks (calls : List DrawCall) : List Look := calls.filterMap DrawCall.look

theorem ownCalls_looks (o : PVec2 Length) (f : Fragment) :
    (ownCalls o f).filterMap DrawCall.look = match f with
      | .box st g _ _ => st.looks g.edge
      | _ => [] := by
  cases f with
  | text st r t => rfl
  | anonymous r cs m => rfl
  | box st g m cs =>
    have h1 : (backgroundCall st g o).filterMap DrawCall.look =
        if (st.resolved (st.val .backgroundColor)).a = 0 then []
        else [.fill (st.resolved (st.val .backgroundColor))] := by
      unfold backgroundCall
      by_cases h : (st.resolved (st.val .backgroundColor)).a = 0
      · rw [if_pos h, h, if_neg (by decide)]
        rfl
      · rw [if_neg h, if_pos (UInt8.pos_iff_ne_zero.2 h)]
        rfl
    simp only [ownCalls, List.filterMap_append, List.filterMap_filterMap, Style.looks, h1]
    have h2 : ∀ s, (edgeCall st g o s).bind DrawCall.look =
        if 0 < g.edge s ∧ st.edgeStyle s ≠ .none then
          some (.edge (st.resolved (st.edgeColor s)) (g.edge s) (st.edgeStyle s)) else none := by
      intro s
      unfold edgeCall
      split <;> rfl
    simp only [h2]
    rfl

mutual

theorem Fragment.places_looks : ∀ (f : Fragment) (anc : List Fragment),
    ((f.places anc).flatMap fun p => ownCalls (sumOffsets p.1) p.2).filterMap DrawCall.look =
      f.frames.flatMap fun p => p.1.looks p.2
  | .box st g m cs, anc => by
    rw [Fragment.places, List.flatMap_cons, List.filterMap_append, ownCalls_looks,
      placesAll_looks cs, Fragment.frames, List.flatMap_cons]
  | .anonymous r cs m, anc => by
    rw [Fragment.places, List.flatMap_cons, List.filterMap_append, ownCalls_looks,
      placesAll_looks cs, Fragment.frames]
    rfl
  | .text st r t, anc => rfl

theorem placesAll_looks : ∀ (fs anc : List Fragment),
    ((placesAll anc fs).flatMap fun p => ownCalls (sumOffsets p.1) p.2).filterMap DrawCall.look =
      (framesAll fs).flatMap fun p => p.1.looks p.2
  | [], _ => rfl
  | f :: fs, anc => by
    rw [placesAll, List.flatMap_append, List.filterMap_append, f.places_looks, placesAll_looks fs,
      framesAll, List.flatMap_append]

end

theorem paintPage_looks (size : PVec2 Length) {fs : List Fragment} (h : uprightAll fs) :
    drawnLooks (paintPage size fs).calls = (framesAll fs).flatMap fun p => p.1.looks p.2 := by
  rw [page_own size fs h, drawnLooks]
  exact placesAll_looks fs []

/-- anonymous boxes are not seen -/
theorem anonymous_looks (p : Option Style) (q : Part) : (Style.anonymousInheritingFrom p).looks q = [] := by
  have h1 : ((Style.anonymousInheritingFrom p).resolved
      ((Style.anonymousInheritingFrom p).val .backgroundColor)).a = 0 := rfl
  have h2 : ∀ s, (Style.anonymousInheritingFrom p).edgeStyle s = .none := by
    intro s; cases s <;> rfl
  simp [Style.looks, h1, h2]

/-- boxes in the given order, with the parts that are shown of them -/
theorem Shown.looks {fs : List Fragment} {bx : List Boxed} (h : Shown (framesAll fs) bx) :
    ∃ js : List (Boxed × List Part), js.map Prod.fst = bx ∧ (∀ j ∈ js, PartsOf j.1 j.2) ∧
      ((framesAll fs).flatMap fun p => p.1.looks p.2).Perm (js.flatMap partLooks) := by
  obtain ⟨J, h1, A, h2, h3, h4⟩ := h
  have h4' : (J.map Prod.fst).Perm bx := Multiset.coe_eq_coe.1 h4
  have hF : List.Forall₂ (fun (b : Boxed) (j : Boxed × List Part) => j.1 = b) (J.map Prod.fst) J := by
    rw [List.forall₂_map_left_iff]
    exact List.forall₂_same.2 fun _ _ => rfl
  obtain ⟨js, k1, k2⟩ := List.perm_comp_forall₂ h4'.symm hF
  have h3' : (framesAll fs).Perm (J.flatMap partFrames ++ A) := by
    rw [← Multiset.coe_eq_coe, h3, Multiset.coe_add]
  refine ⟨js, ?_, fun j hj => h1 j (k2.subset hj), ?_⟩
  · clear h4 h4' hF k2
    induction k1 with
    | nil => rfl
    | cons h _ ih => rw [List.map_cons, h, ih]
  · refine (h3'.flatMap_right _).trans ?_
    rw [List.flatMap_append]
    have e1 : (A.flatMap fun p => p.1.looks p.2) = [] := by
      rw [List.flatMap_eq_nil_iff]
      intro a ha
      obtain ⟨p, hp⟩ := h2 a ha
      rw [hp, anonymous_looks]
    have e2 : ((J.flatMap partFrames).flatMap fun p => p.1.looks p.2) = J.flatMap partLooks := by
      rw [List.flatMap_assoc]
      refine List.flatMap_congr fun j _ => ?_
      simp [partFrames, partLooks, List.flatMap_map]
    rw [e1, e2, List.append_nil]
    exact k2.symm.flatMap_right _

section

variable {C : BoxContext} {E : TextEnv} {kids : NodeId → List NodeId} {st : Style}
  {cs : List Styled} {b : Bfc} {size : PVec2 Length} {fs : List Fragment}

theorem Page.boxed (h : Page C E kids st cs b size fs) : b.boxed = boxedPage st cs ∧ b.tidy := by
  obtain ⟨hg, fl, rfl⟩ := h.tree
  obtain ⟨root, -, -, -, hs⟩ := h.content
  obtain ⟨h1, h2⟩ := containerOf_boxed (C := C) (st := st) hg hs.faithful
  have hd := h.shown
  unfold boxedPage
  by_cases hp : (st.val .position).isAbsolutelyPositioned = true
  · simp [Bfc.boxed, BlockContainer.boxed, blockBoxed, BlockLevelBox.boxed, hp, hd, h1, Bfc.tidy,
      BlockContainer.tidy, blockTidy, BlockLevelBox.tidy, h2]
  · by_cases hf : (st.val .float).isFloating = true
    · simp [Bfc.boxed, BlockContainer.boxed, blockBoxed, BlockLevelBox.boxed, hp, hf, Bfc.tidy,
        BlockContainer.tidy, blockTidy, BlockLevelBox.tidy]
    · simp [Bfc.boxed, BlockContainer.boxed, blockBoxed, BlockLevelBox.boxed, hp, hd, h1, hf, Bfc.tidy,
        BlockContainer.tidy, blockTidy, BlockLevelBox.tidy, h2]

/-- **C74**: backgrounds and borders are drawn exactly of the elements that have boxes and are not
in floats, of each part of such a box, and of nothing else. -/
theorem C74_decorations (h : Page C E kids st cs b size fs) :
    ∃ js : List (Boxed × List Part), js.map Prod.fst = boxedPage st cs ∧
      (∀ j ∈ js, PartsOf j.1 j.2) ∧
      (drawnLooks (paintPage size fs).calls).Perm (js.flatMap partLooks) := by
  rw [paintPage_looks size (rootLayout_up h.laidOut), ← h.boxed.1]
  exact (rootLayout_draws ⟨h.sound, h.boxed.2⟩ h.laidOut).looks

/-- the borders of a part are those of the element or cut off -/
theorem PartsOf.sides {b : Boxed} {ps : List Part} (h : PartsOf b ps) {p : Part} (hp : p ∈ ps) (s : Side) :
    p s = 0 ∨ ∃ base, p s = (b.1.edgeWidth s).amount base := by
  cases h with
  | whole _ base =>
    rw [List.mem_singleton] at hp
    subst hp
    exact .inr ⟨base, rfl⟩
  | broken st base n =>
    have : ∀ l r, (st.wholePart base).cut l r s = 0 ∨
        ∃ base', (st.wholePart base).cut l r s = (st.edgeWidth s).amount base' := by
      intro l r
      cases s <;> cases l <;> cases r <;> simp [Part.cut, Style.wholePart] <;>
        exact .inr ⟨base, rfl⟩
    simp only [List.mem_append, List.mem_cons, List.mem_replicate, List.not_mem_nil, or_false] at hp
    rcases hp with ((rfl | ⟨-, rfl⟩) | rfl) <;> exact this _ _

/-- every border is in some part -/
theorem PartsOf.has_side {b : Boxed} {ps : List Part} (h : PartsOf b ps) (s : Side) :
    ∃ p ∈ ps, ∃ base, p s = (b.1.edgeWidth s).amount base := by
  cases h with
  | whole _ base => exact ⟨_, List.mem_singleton.2 rfl, base, rfl⟩
  | broken st base n =>
    cases s with
    | right => exact ⟨_, by simp; exact .inr (.inr rfl), base, rfl⟩
    | _ => exact ⟨_, by simp; exact .inl rfl, base, rfl⟩

theorem look_rect {calls : List DrawCall} {c : RGBA} :
    Look.fill c ∈ drawnLooks calls ↔ ∃ x y w h, DrawCall.rect x y w h c ∈ calls := by
  simp only [drawnLooks, List.mem_filterMap]
  constructor
  · rintro ⟨a, ha, h⟩
    cases a <;> simp [DrawCall.look] at h
    subst h
    exact ⟨_, _, _, _, ha⟩
  · rintro ⟨x, y, w, h, hm⟩
    exact ⟨_, hm, rfl⟩

theorem look_line {calls : List DrawCall} {c : RGBA} {w : ℚ} {ls : LineStyle} :
    Look.edge c w ls ∈ drawnLooks calls ↔ ∃ ps, DrawCall.line ps c w ls ∈ calls := by
  simp only [drawnLooks, List.mem_filterMap]
  constructor
  · rintro ⟨a, ha, h⟩
    cases a <;> simp [DrawCall.look] at h
    obtain ⟨rfl, rfl, rfl⟩ := h
    exact ⟨_, ha⟩
  · rintro ⟨ps, hm⟩
    exact ⟨_, hm, rfl⟩

theorem fill_looks {s : Style} {p : Part} {c : RGBA} : Look.fill c ∈ s.looks p ↔
    c = s.resolved (s.val .backgroundColor) ∧ c.a ≠ 0 := by
  unfold Style.looks
  rw [List.mem_append]
  constructor
  · rintro (h | h)
    · split at h
      · cases h
      · rename_i ha
        rw [List.mem_singleton] at h
        injection h with h
        subst h
        exact ⟨rfl, ha⟩
    · obtain ⟨x, -, hx⟩ := List.mem_filterMap.1 h
      split at hx <;> cases hx
  · rintro ⟨rfl, h⟩
    rw [if_neg h]
    exact .inl (List.mem_singleton.2 rfl)

theorem edge_looks {s : Style} {p : Part} {c : RGBA} {w : ℚ} {ls : LineStyle} :
    Look.edge c w ls ∈ s.looks p ↔ ∃ x : Side, c = s.resolved (s.edgeColor x) ∧ w = p x ∧
      ls = s.edgeStyle x ∧ 0 < w ∧ ls ≠ .none := by
  unfold Style.looks
  rw [List.mem_append]
  constructor
  · rintro (h | h)
    · split at h
      · cases h
      · rw [List.mem_singleton] at h
        cases h
    · obtain ⟨x, -, hx⟩ := List.mem_filterMap.1 h
      split at hx
      · rename_i hc
        injection hx with hx
        injection hx with h1 h2 h3
        subst h1 h2 h3
        exact ⟨x, rfl, rfl, rfl, hc.1, hc.2⟩
      · cases hx
  · rintro ⟨x, rfl, rfl, rfl, h1, h2⟩
    refine .inr (List.mem_filterMap.2 ⟨x, by cases x <;> simp, ?_⟩)
    rw [if_pos ⟨h1, h2⟩]

/-- **C74**: rectangles are drawn in the colours of the visible backgrounds of the elements that
have boxes and are not in floats, all of these, and no others. -/
theorem C74_backgrounds (h : Page C E kids st cs b size fs) (c : RGBA) :
    (∃ x y w h, DrawCall.rect x y w h c ∈ (paintPage size fs).calls) ↔
      c.a ≠ 0 ∧ ∃ e ∈ boxedPage st cs, c = e.1.resolved (e.1.val .backgroundColor) := by
  obtain ⟨js, h1, h2, h3⟩ := C74_decorations h
  rw [← look_rect, h3.mem_iff, List.mem_flatMap, ← h1]
  constructor
  · rintro ⟨j, hj, hm⟩
    obtain ⟨p, hp, hm⟩ := List.mem_flatMap.1 hm
    obtain ⟨k1, k2⟩ := fill_looks.1 hm
    exact ⟨k2, j.1, List.mem_map_of_mem hj, k1⟩
  · rintro ⟨k2, e, he, k1⟩
    obtain ⟨j, hj, rfl⟩ := List.mem_map.1 he
    obtain ⟨p, hp, -⟩ := (h2 j hj).has_side .top
    exact ⟨j, hj, List.mem_flatMap.2 ⟨p, hp, fill_looks.2 ⟨k1, k2⟩⟩⟩

/-- **C74**: every line that is drawn is a border of such an element, in its colour, width and style. -/
theorem C74_lines (h : Page C E kids st cs b size fs) {ps : List (ℚ × ℚ)} {c : RGBA} {w : ℚ}
    {ls : LineStyle} (hl : DrawCall.line ps c w ls ∈ (paintPage size fs).calls) :
    0 < w ∧ ls ≠ .none ∧ ∃ e ∈ boxedPage st cs, ∃ s : Side, c = e.1.resolved (e.1.edgeColor s) ∧
      ls = e.1.edgeStyle s ∧ ∃ base, w = (e.1.edgeWidth s).amount base := by
  obtain ⟨js, h1, h2, h3⟩ := C74_decorations h
  have hm := look_line.2 ⟨ps, hl⟩
  rw [h3.mem_iff] at hm
  obtain ⟨j, hj, hm⟩ := List.mem_flatMap.1 hm
  obtain ⟨p, hp, hm⟩ := List.mem_flatMap.1 hm
  obtain ⟨s, k1, k2, k3, k4, k5⟩ := edge_looks.1 hm
  refine ⟨k4, k5, j.1, h1 ▸ List.mem_map_of_mem hj, s, k1, k3, ?_⟩
  rcases (h2 j hj).sides hp s with h0 | ⟨base, hb⟩
  · rw [k2, h0] at k4
    exact absurd k4 (lt_irrefl _)
  · exact ⟨base, by rw [k2, hb]⟩

/-- **C74**: every border that has a style and a width is drawn, also if the element is broken over
lines. -/
theorem C74_borders (h : Page C E kids st cs b size fs) {e : Boxed} (he : e ∈ boxedPage st cs)
    {s : Side} (hs : e.1.edgeStyle s ≠ .none) {w : ℚ} (hw : e.1.edgeWidth s = .length w) (h0 : 0 < w) :
    ∃ ps, DrawCall.line ps (e.1.resolved (e.1.edgeColor s)) w (e.1.edgeStyle s) ∈
      (paintPage size fs).calls := by
  obtain ⟨js, h1, h2, h3⟩ := C74_decorations h
  rw [← h1] at he
  obtain ⟨j, hj, rfl⟩ := List.mem_map.1 he
  obtain ⟨p, hp, base, hb⟩ := (h2 j hj).has_side s
  rw [← look_line, h3.mem_iff]
  rw [hw] at hb
  exact List.mem_flatMap.2 ⟨j, hj, List.mem_flatMap.2 ⟨p, hp,
    edge_looks.2 ⟨s, rfl, by rw [hb]; rfl, rfl, h0, hs⟩⟩⟩

/-- nothing of the element itself can be seen, except text -/
def Style.Bare (s : Style) : Prop :=
  (s.resolved (s.val .backgroundColor)).a = 0 ∧
    ∀ x, s.edgeStyle x = .none ∨ s.edgeWidth x = .length 0

theorem Style.Bare.looks {s : Style} (h : s.Bare) {o : DisplayOutside} {ps : List Part}
    (hp : PartsOf (s, o) ps) : ps.flatMap s.looks = [] := by
  rw [List.flatMap_eq_nil_iff]
  intro p hp'
  rw [List.eq_nil_iff_forall_not_mem]
  rintro (c | ⟨c, w, ls⟩) hm
  · obtain ⟨rfl, k2⟩ := fill_looks.1 hm
    exact k2 h.1
  · obtain ⟨x, -, k2, k3, k4, k5⟩ := edge_looks.1 hm
    rcases h.2 x with h1 | h1
    · exact k5 (k3.trans h1)
    · rcases hp.sides hp' x with h0 | ⟨base, hb⟩
      · rw [k2, h0] at k4
        exact absurd k4 (lt_irrefl _)
      · rw [k2, hb, h1] at k4
        exact absurd k4 (lt_irrefl _)

/-- **C74**: if each element that has a background or a border is a block, with borders of definite
width, then each background and each border is drawn exactly once. -/
theorem C74_once (h : Page C E kids st cs b size fs)
    (hb : ∀ e ∈ boxedPage st cs, e.1.Bare ∨
      e.2 = .block ∧ ∀ s, ∃ l, e.1.edgeWidth s = .length l) :
    (drawnLooks (paintPage size fs).calls).Perm
      ((boxedPage st cs).flatMap fun e => e.1.looks fun s => (e.1.edgeWidth s).amount 0) := by
  obtain ⟨js, h1, h2, h3⟩ := C74_decorations h
  refine h3.trans (List.Perm.of_eq ?_)
  rw [← h1] at hb ⊢
  rw [List.flatMap_map]
  refine List.flatMap_congr fun j hj => ?_
  obtain ⟨⟨s, o⟩, ps⟩ := j
  have hp : PartsOf (s, o) ps := h2 _ hj
  rcases hb _ (List.mem_map_of_mem hj) with hbare | ⟨hblock, hl⟩
  · have e1 : (s.looks fun x => (s.edgeWidth x).amount 0) = [] := by
      have := hbare.looks (.whole (s, o) 0)
      rw [List.flatMap_cons, List.flatMap_nil, List.append_nil] at this
      exact this
    simp only [partLooks, hbare.looks hp, e1]
  · simp only at hblock hl
    subst hblock
    cases hp with
    | whole _ base =>
      simp only [partLooks, List.flatMap_cons, List.flatMap_nil, List.append_nil]
      congr 1
      funext x
      obtain ⟨l, hl⟩ := hl x
      simp only [Style.wholePart, hl, LengthOrPercentage.amount]

/-- **C74**: if no element has a background or a border, then nothing but text is drawn. -/
theorem C74_only_text (h : Page C E kids st cs b size fs) (hb : ∀ e ∈ boxedPage st cs, e.1.Bare) :
    ∀ c ∈ (paintPage size fs).calls, c.isRect = false ∧ c.isLine = false := by
  obtain ⟨js, h1, h2, h3⟩ := C74_decorations h
  have h0 : js.flatMap partLooks = [] := by
    rw [List.flatMap_eq_nil_iff]
    intro j hj
    exact (hb j.1 (h1 ▸ List.mem_map_of_mem hj)).looks (h2 j hj)
  rw [h0] at h3
  have h4 := h3.eq_nil
  intro c hc
  cases c with
  | rect x y w h col =>
    have : Look.fill col ∈ drawnLooks (paintPage size fs).calls := look_rect.2 ⟨_, _, _, _, hc⟩
    rw [h4] at this
    cases this
  | line ps col w ls =>
    have : Look.edge col w ls ∈ drawnLooks (paintPage size fs).calls := look_line.2 ⟨_, hc⟩
    rw [h4] at this
    cases this
  | _ => exact ⟨rfl, rfl⟩

end

/-! ## From the text of the page -/

/-- **C74, from the source text**: if a page whose style sheets can be read is laid out, then the
backgrounds and borders that are drawn are those of its elements with the styles of the cascade. -/
theorem C74_rendered (X : Externals) {html sheet : Text} {ops : List Doc.SinkOp}
    (hops : X.html html = .ok ops) (hleg : LegalRun Doc.new ops) {d : Doc}
    (hrun : Doc.new.runSink ops = .ok d) {kids} (hw : d.WF kids) (hl : Legible X d kids sheet)
    (n : Nat) (size : PVec2 Length) (hp : (X.renderHtml n html sheet size).panic = none) :
    ∃ author root st cs, X.parseStylesheets d (some sheet) = .ok author ∧ OneRoot d kids root ∧
      styleForElement X.colors X.attr X.userAgent author d root none = .ok st ∧
      Shows (.of X.colors X.attr X.userAgent author d X.env) kids st (kids root) cs ∧
      ∃ js : List (Boxed × List Part), js.map Prod.fst = boxedPage st cs ∧
        (∀ j ∈ js, PartsOf j.1 j.2) ∧
        (drawnLooks (X.renderHtml n html sheet size).calls).Perm (js.flatMap partLooks) := by
  have hd : Doc.Reachable d := by
    obtain ⟨d', h1, h2⟩ := hleg.reachable .new
    rw [hrun] at h1
    cases h1
    exact h2
  obtain ⟨a, ha, hans⟩ := hl.author hd hw
  have hs : ∀ i p, i < d.len → ∃ s, styleForElement X.colors X.attr X.userAgent a d i p = .ok s :=
    fun i p hi => hl.style hans i p hi
  have hparse : X.parseHtml html = .ok d := by
    simp only [Externals.parseHtml, hops, bind, Except.bind, hrun]
  unfold Externals.renderHtml at hp ⊢
  cases hlay : X.layoutHtml n html sheet size with
  | error p => rw [hlay] at hp; cases hp
  | ok fs =>
    simp only [Externals.layoutHtml, hparse, Externals.layoutDoc, ha, bind, Except.bind] at hlay
    cases hb : boxTree (.of X.colors X.attr X.userAgent a d X.env) n with
    | error p => rw [hb] at hlay; cases hlay
    | ok b =>
      rw [hb] at hlay
      cases hf : rootLayout X.env b size with
      | error p => simp only [hf] at hlay; cases hlay
      | ok fs' =>
        simp only [hf] at hlay
        split at hlay
        · cases hlay
        cases hlay
        have hb' := hb
        unfold boxTree at hb'
        obtain ⟨root, hr, h⟩ := bind_eq_ok.1 hb'
        obtain ⟨st, hst, h⟩ := bind_eq_ok.1 h
        have hroot := (rootElement_iff hd hw root).1 hr
        have hlt : root < d.len := by
          obtain ⟨a, b, hk, _⟩ := hroot
          exact (hw.bound Doc.documentNodeId root (by rw [hk]; simp)).2
        obtain ⟨l, hl'⟩ := hw.treeOrder (kids root) fun x hx => (hw.bound root x hx).2
        obtain ⟨cs, hcs⟩ := Shows.exists (C := BoxContext.of X.colors X.attr X.userAgent a d X.env)
          hw hs hl' st fun x hx => (hw.bound root x hx).2
        refine ⟨a, root, st, cs, ha, hroot, hst, hcs, ?_⟩
        by_cases hdisp : st.val .display = .none
        · unfold constructRoot at h
          rw [if_pos hdisp] at h
          cases h
          refine ⟨[], by simp [boxedPage, hdisp], by simp, ?_⟩
          have hS : Shown (framesAll fs) ([] : List Boxed) :=
            rootLayout_draws (root := .mk (.blockLevelBoxes []) false) ⟨trivial, trivial⟩ hf
          obtain ⟨js, k1, -, k3⟩ := hS.looks
          simp only [List.map_eq_nil_iff] at k1
          subst k1
          exact (List.Perm.of_eq (paintPage_looks size (rootLayout_up hf))).trans k3
        · exact C74_decorations (C := .of X.colors X.attr X.userAgent a d X.env) (E := X.env)
            ⟨hw, ⟨_, _, _, _, _, _, rfl⟩, ⟨root, hr, hlt, hst, hcs⟩, hdisp, ⟨n, hb⟩, hf⟩

/-! ## Examples -/

/-- `nameSheet`, with a red background for `<p>`, `<em>` and floats, a blue one for absolutely
positioned elements, and a border left, right and above for `<em>` -/
def decorSheet : StyleSet nameEngine where
  rules := nameSheet.rules.append
    [("p", .one (.value .backgroundColor (.rgba ⟨255, 0, 0, 255⟩))),
     ("float", .one (.value .backgroundColor (.rgba ⟨0, 255, 0, 255⟩))),
     ("abs", .one (.value .backgroundColor (.rgba ⟨0, 0, 255, 255⟩))),
     ("em", .one (.value .borderLeftStyle LineStyle.solid)),
     ("em", .one (.value .borderLeftWidth (.length (.absolute 1)))),
     ("em", .one (.value .borderRightStyle LineStyle.dashed)),
     ("em", .one (.value .borderRightWidth (.length (.absolute 2)))),
     ("em", .one (.value .borderTopStyle LineStyle.dotted)),
     ("em", .one (.value .borderTopWidth (.length (.absolute 3))))]

/-- `opsExternals` with this style sheet -/
def decorExternals (ops : List Doc.SinkOp) : Externals := { opsExternals ops with userAgent := decorSheet }

/-- `<p>a<em>b c d</em></p><abs>e</abs><float>f</float>g` -/
def decorOps : List Doc.SinkOp :=
  [.createElement (htmlName "html") [], .append 1 (.node 2),
   .createElement (htmlName "body") [], .append 2 (.node 3),
   .createElement (htmlName "p") [], .append 3 (.node 4), .append 4 (.text "a".toList),
   .createElement (htmlName "em") [], .append 4 (.node 6), .append 6 (.text "b c d".toList),
   .createElement (htmlName "abs") [], .append 3 (.node 8), .append 8 (.text "e".toList),
   .createElement (htmlName "float") [], .append 3 (.node 10), .append 10 (.text "f".toList),
   .append 3 (.text "g".toList)]

/-- On a page on which `<em>` is broken over three lines, there is one red background, three upper
borders, but one left and one right border; the background of the absolutely positioned
element is drawn last, that of the float never. -/
example : ((decorExternals decorOps).renderHtml 40 [] [] ⟨28, 100⟩).panic = none ∧
    drawnLooks ((decorExternals decorOps).renderHtml 40 [] [] ⟨28, 100⟩).calls =
    [.fill ⟨255, 0, 0, 255⟩, .edge ⟨0, 0, 0, 255⟩ 3 .dotted, .edge ⟨0, 0, 0, 255⟩ 1 .solid,
      .edge ⟨0, 0, 0, 255⟩ 3 .dotted, .edge ⟨0, 0, 0, 255⟩ 3 .dotted, .edge ⟨0, 0, 0, 255⟩ 2 .dashed,
      .fill ⟨0, 0, 255, 255⟩] := by
  decide +kernel

/-- On a wide page, `<em>` is in one part. -/
example : drawnLooks ((decorExternals decorOps).renderHtml 40 [] [] ⟨200, 100⟩).calls =
    [.fill ⟨255, 0, 0, 255⟩, .edge ⟨0, 0, 0, 255⟩ 3 .dotted, .edge ⟨0, 0, 0, 255⟩ 2 .dashed,
      .edge ⟨0, 0, 0, 255⟩ 1 .solid, .fill ⟨0, 0, 255, 255⟩] := by
  decide +kernel

theorem decorOps_legible : Legible (decorExternals decorOps) (docOf decorOps) (linkedKids (docOf decorOps)) [] := by
  refine ⟨fun r _ n _ _ => ⟨_, rfl⟩, fun t _ sels items hr => ?_, fun n e a _ _ _ name ts hm => ?_⟩
  · exact absurd hr (List.not_mem_nil (a := RawRule.rule sels items))
  · exact absurd hm (List.not_mem_nil)

-- the hypotheses of `C74_rendered` hold for this page
example : ∃ author root st cs, (decorExternals decorOps).parseStylesheets (docOf decorOps) (some []) = .ok author ∧
      OneRoot (docOf decorOps) (linkedKids (docOf decorOps)) root ∧
      styleForElement (decorExternals decorOps).colors (decorExternals decorOps).attr
        (decorExternals decorOps).userAgent author (docOf decorOps) root none = .ok st ∧
      Shows (.of (decorExternals decorOps).colors (decorExternals decorOps).attr
        (decorExternals decorOps).userAgent author (docOf decorOps) (decorExternals decorOps).env)
        (linkedKids (docOf decorOps)) st (linkedKids (docOf decorOps) root) cs ∧
      ∃ js : List (Boxed × List Part), js.map Prod.fst = boxedPage st cs ∧
        (∀ j ∈ js, PartsOf j.1 j.2) ∧
        (drawnLooks ((decorExternals decorOps).renderHtml 40 [] [] ⟨28, 100⟩).calls).Perm
          (js.flatMap partLooks) := by
  have hrun : (Doc.legalRun Doc.new decorOps).isSome = true := by decide +kernel
  obtain ⟨d, hd⟩ := Option.isSome_iff_exists.1 hrun
  have hdoc : docOf decorOps = d := by simp [docOf, hd]
  obtain ⟨k1, k2⟩ := legalRun_sound hd
  exact C74_rendered (decorExternals decorOps) (html := []) (sheet := []) rfl k1 (by rw [hdoc]; exact k2)
    (forestCheck_wf (by decide +kernel)) decorOps_legible 40 ⟨28, 100⟩ (by decide +kernel)

end Sinab
