import Verif.Spec.Colours
import Verif.Lemmas.ZoomBoxes
import Verif.Props.SameStyles

/-! Lemmas for C90. -/

namespace Sinab

/-! ### Erasing colours -/

/-- all colours become those of the initial style; everything else stays as it is -/
def uncoloured : Zoom where
  k := 1
  pos := by norm_num
  gc := id
  paint p v := if p.isColour then p.initial else v
  paint_initial p := by split <;> rfl

theorem uncoloured_lp (v : LengthOrPercentage) : uncoloured.lp v = v := by
  cases v <;> simp [Zoom.lp, uncoloured]

theorem uncoloured_lpa (v : LengthOrPercentageOrAuto) : uncoloured.lpa v = v := by
  cases v <;> simp [Zoom.lpa, uncoloured]

theorem uncoloured_lpn (v : LengthOrPercentageOrNumber) : uncoloured.lpn v = v := by
  cases v <;> simp [Zoom.lpn, uncoloured]

theorem uncoloured_align (v : VerticalAlign) : uncoloured.align v = v := by
  cases v <;> simp [Zoom.align, uncoloured]

theorem uncoloured_value (p : Longhand) (v : p.Comp) :
    uncoloured.value p v = if p.isColour then p.initial else v := by
  cases p <;> first
    | rfl
    | exact uncoloured_lp v
    | exact uncoloured_lpa v
    | exact uncoloured_lpn v
    | exact uncoloured_align v
    | exact one_mul (M := ℚ) v

theorem Style.SameButColours.refl (s : Style) : s.SameButColours s := ⟨fun _ _ => rfl, rfl⟩

theorem Style.SameButColours.symm {s t : Style} (h : s.SameButColours t) : t.SameButColours s :=
  ⟨fun p hp => (h.val p hp).symm, h.specifiedDisplay.symm⟩

theorem Style.SameButColours.trans {s t u : Style} (h : s.SameButColours t) (h' : t.SameButColours u) :
    s.SameButColours u :=
  ⟨fun p hp => (h.val p hp).trans (h'.val p hp), h.specifiedDisplay.trans h'.specifiedDisplay⟩

theorem uncoloured_val (s : Style) {p : Longhand} (hp : p.isColour = false) : (uncoloured.style s).val p = s.val p := by
  show uncoloured.value p (s.val p) = _
  rw [uncoloured_value, hp]
  rfl

theorem uncoloured_same (s : Style) : (uncoloured.style s).SameButColours s := ⟨fun _ hp => uncoloured_val s hp, rfl⟩

theorem Style.SameButColours.erase {s t : Style} (h : s.SameButColours t) : uncoloured.style s = uncoloured.style t := by
  unfold Zoom.style
  rw [h.specifiedDisplay]
  congr 1
  funext p
  rw [uncoloured_value, uncoloured_value]
  cases hp : p.isColour
  · simpa using h.val p hp
  · rfl

theorem Recoloured.erase {cs cs' : List Styled} (h : Recoloured cs cs') :
    uncoloured.styledAll cs = uncoloured.styledAll cs' := by
  induction h with
  | nil => rfl
  | other _ ih | hidden _ ih => simp only [Zoom.styledAll, Zoom.styled, ih]
  | text hs _ ih => simp only [Zoom.styledAll, Zoom.styled, ih, hs.erase]
  | contents _ _ ih1 ih2 => simp only [Zoom.styledAll, Zoom.styled, ih1, ih2]
  | elem hs _ _ ih1 ih2 => simp only [Zoom.styledAll, Zoom.styled, ih1, ih2, hs.erase]

theorem uncoloured_font (f : Font) : uncoloured.font f = f := by simp [Zoom.font, uncoloured]

theorem uncoloured_fonts {E : TextEnv} (hE : E.IgnoresColours) : uncoloured.Fonts E E := by
  refine ⟨fun s => ?_, fun f t => ?_⟩
  · rw [uncoloured_font, hE _ _ (uncoloured_same s)]
  · rw [uncoloured_font]; simp [uncoloured]

theorem uncoloured_psize (v : PVec2 Length) : uncoloured.psize v = v := by simp [Zoom.psize, uncoloured]

theorem uncoloured_rect (r : Rect Length) : uncoloured.rect r = r := by simp [Zoom.rect, Zoom.vec, uncoloured]

theorem uncoloured_sides (r : Sides Length) : uncoloured.sides r = r := by simp [Zoom.sides, uncoloured]

theorem uncoloured_geom (g : BoxGeom) : uncoloured.geom g = g := by
  simp [Zoom.geom, uncoloured_rect, uncoloured_sides]

theorem uncoloured_seg (s : ShapedSegment) : uncoloured.seg s = s := by
  simp [Zoom.seg, uncoloured_font]
  cases h : s.advanceWidth <;> simp [uncoloured, ← h]

/-! ### Painting -/

/-- what is drawn, and where -/
def Trace.placed (t : Trace) : List DrawnPlace × Option Panic := (t.calls.filterMap DrawCall.place, t.panic)

theorem Trace.placed_andThen {a b a' b' : Trace} (ha : a.placed = a'.placed) (hb : b.placed = b'.placed) :
    (a.andThen b).placed = (a'.andThen b').placed := by
  obtain ⟨ac, ap⟩ := a
  obtain ⟨ac', ap'⟩ := a'
  simp only [Trace.placed, Prod.mk.injEq] at ha hb
  obtain ⟨h1, rfl⟩ := ha
  cases ap <;> simp [Trace.andThen, Trace.placed, h1, hb]

theorem Trace.placed_after {α : Type} {e : Except Panic α} {k k' : α → Trace}
    (h : ∀ a, (k a).placed = (k' a).placed) : (Trace.after e k).placed = (Trace.after e k').placed := by
  cases e with
  | ok a => exact h a
  | error p => rfl

theorem paintBackground_placed (s t : Style) (b : PRect Length) :
    (paintBackground s b).placed = (paintBackground t b).placed := by
  have h : ∀ s : Style, (paintBackground s b).placed = ([], none) := by
    intro s
    simp only [paintBackground]
    split <;> rfl
  rw [h, h]

theorem paintTop_placed {s t : Style} (h : s.SameButColours t) (b p : PRect Length) :
    (paintTop s b p).placed = (paintTop t b p).placed := by
  simp only [paintTop, h.val .borderTopStyle rfl]
  split <;> rfl

theorem paintRight_placed {s t : Style} (h : s.SameButColours t) (b p : PRect Length) :
    (paintRight s b p).placed = (paintRight t b p).placed := by
  simp only [paintRight, h.val .borderRightStyle rfl]
  split <;> rfl

theorem paintBottom_placed {s t : Style} (h : s.SameButColours t) (b p : PRect Length) :
    (paintBottom s b p).placed = (paintBottom t b p).placed := by
  simp only [paintBottom, h.val .borderBottomStyle rfl]
  split <;> rfl

theorem paintLeft_placed {s t : Style} (h : s.SameButColours t) (b p : PRect Length) :
    (paintLeft s b p).placed = (paintLeft t b p).placed := by
  simp only [paintLeft, h.val .borderLeftStyle rfl]
  split <;> rfl

mutual

theorem paintOnto_placed : ∀ (f : Fragment) (c : PRect Length), ((uncoloured.frag f).paintOnto c).placed =
    (f.paintOnto c).placed
  | .box st g m cs, c => by
    simp only [Zoom.frag, Fragment.paintOnto, uncoloured_geom, Zoom.style_mode]
    have h := uncoloured_same st
    refine Trace.placed_after fun _ => Trace.placed_after fun _ => Trace.placed_after fun _ => Trace.placed_after fun _ => ?_
    refine Trace.placed_andThen rfl (Trace.placed_andThen (paintBackground_placed _ _ _)
      (Trace.placed_andThen (paintTop_placed h _ _) (Trace.placed_andThen (paintRight_placed h _ _)
      (Trace.placed_andThen (paintBottom_placed h _ _) (Trace.placed_andThen (paintLeft_placed h _ _)
        (paintAll_placed cs _))))))
  | .anonymous r cs m, c => by
    simp only [Zoom.frag, Fragment.paintOnto, uncoloured_rect]
    exact Trace.placed_after fun _ => Trace.placed_andThen rfl (paintAll_placed cs _)
  | .text st r t, c => by
    simp only [Zoom.frag, Fragment.paintOnto, uncoloured_rect, uncoloured_seg, Zoom.style_mode]
    exact Trace.placed_after fun _ => Trace.placed_andThen rfl rfl

theorem paintAll_placed : ∀ (fs : List Fragment) (c : PRect Length), (paintAll c (uncoloured.frags fs)).placed =
    (paintAll c fs).placed
  | [], _ => rfl
  | f :: fs, c => by
    simp only [Zoom.frags, paintAll]
    exact Trace.placed_andThen (paintOnto_placed f c) (paintAll_placed fs c)

end

/-! ### The cascade -/

theorem Style.SameButColours.set {s t : Style} (h : s.SameButColours t) (p : Longhand) {v w : p.Comp}
    (hv : p.isColour = false → v = w) : (s.set p v).SameButColours (t.set p w) := by
  refine ⟨fun q hq => ?_, h.specifiedDisplay⟩
  by_cases e : q = p
  · subst e
    rw [Style.set_val_same, Style.set_val_same, hv hq]
  · rw [Style.set_val_ne _ _ e, Style.set_val_ne _ _ e, h.val q hq]

theorem Style.SameButColours.set_left {s t : Style} (h : s.SameButColours t) {p : Longhand} (hp : p.isColour = true)
    (v : p.Comp) : (s.set p v).SameButColours t := by
  refine ⟨fun q hq => ?_, h.specifiedDisplay⟩
  have e : q ≠ p := by rintro rfl; simp [hp] at hq
  rw [Style.set_val_ne _ _ e, h.val q hq]

theorem computedValue_same {s t : Style} (h : s.SameButColours t) (fs : ℚ) {p : Longhand} (hp : p.isColour = false)
    (v : p.Spec) : p.computedValue s fs v = p.computedValue t fs v := by
  have hf := h.val .fontSize rfl
  cases p <;> first
    | (simp [Longhand.isColour] at hp; done)
    | rfl
    | simp only [Longhand.computedValue, hf]

theorem defaultValue_same {s t : Style} (h : s.SameButColours t) {p : Longhand} (hp : p.isColour = false) :
    p.defaultValue s = p.defaultValue t := by
  simp only [Longhand.defaultValue, h.val p hp]

theorem valueOf_same {s t : Style} (h : s.SameButColours t) (fs : ℚ) {d : Decl} (hd : d.longhand.isColour = false) :
    d.valueOf s fs = d.valueOf t fs := by
  cases d with
  | value p v => exact computedValue_same h fs hd v
  | cssWide p k => cases k with
    | initial => rfl
    | inherit => exact h.val p hd
    | unset => exact defaultValue_same h hd

theorem Phase.cascade_same (ph : Phase) {i i' t t' : Style} (hi : i.SameButColours i') (ht : t.SameButColours t')
    (d : Decl) : (ph.cascade i t d).SameButColours (ph.cascade i' t' d) := by
  cases ph with
  | early =>
    simp only [Phase.cascade, Decl.early_eq i t 0, Decl.early_eq i' t' 0]
    split
    · exact ht.set _ fun hp => valueOf_same hi 0 hp
    · exact ht
  | late =>
    simp only [Phase.cascade, Decl.late_eq]
    split
    · exact ht
    · refine ht.set _ fun hp => ?_
      rw [ht.val .fontSize rfl]
      exact valueOf_same hi _ hp

theorem Phase.cascade_colour (ph : Phase) {i t t' : Style} (ht : t.SameButColours t') {d : Decl}
    (hd : d.longhand.isColour = true) : (ph.cascade i t d).SameButColours t' := by
  cases ph with
  | early =>
    simp only [Phase.cascade, Decl.early_eq i t 0]
    split
    · exact ht.set_left hd _
    · exact ht
  | late =>
    simp only [Phase.cascade, Decl.late_eq]
    split
    · exact ht
    · exact ht.set_left hd _

/-- declarations without those of colours -/
def plainDecls (l : List Decl) : List Decl := l.filter fun d => !d.longhand.isColour

theorem foldl_plain (ph : Phase) (i : Style) : ∀ (l : List Decl) {t t' : Style}, t.SameButColours t' →
    (l.foldl (ph.cascade i) t).SameButColours ((plainDecls l).foldl (ph.cascade i) t')
  | [], _, _, ht => ht
  | d :: l, t, t', ht => by
    simp only [List.foldl_cons, plainDecls, List.filter_cons]
    cases hd : d.longhand.isColour
    · exact foldl_plain ph i l (ph.cascade_same (.refl i) ht d)
    · exact foldl_plain ph i l (ph.cascade_colour ht hd)

theorem foldl_same (ph : Phase) {i i' : Style} (hi : i.SameButColours i') : ∀ (l : List Decl) {t t' : Style},
    t.SameButColours t' → (l.foldl (ph.cascade i) t).SameButColours (l.foldl (ph.cascade i') t')
  | [], _, _, ht => ht
  | d :: l, _, _, ht => foldl_same ph hi l (ph.cascade_same hi ht d)

theorem foldl_both (ph : Phase) {i i' : Style} (hi : i.SameButColours i') {l l' : List Decl}
    (hl : plainDecls l = plainDecls l') {t t' : Style} (ht : t.SameButColours t') :
    (l.foldl (ph.cascade i) t).SameButColours (l'.foldl (ph.cascade i') t') := by
  have h1 := foldl_plain ph i l ht
  have h2 := foldl_plain ph i' l' (.refl t')
  rw [← hl] at h2
  exact h1.trans ((foldl_same ph hi _ (.refl t')).trans h2.symm)

theorem start_same {i i' : Style} (hi : i.SameButColours i') : (Style.start i).SameButColours (Style.start i') := by
  refine ⟨fun p hp => ?_, rfl⟩
  rw [Style.start_val, Style.start_val, defaultValue_same hi hp]

theorem fixups_specified (s : Style) : s.postCascadeFixups.specifiedDisplay = s.val .display := by
  unfold Style.postCascadeFixups
  dsimp only
  rw [Style.displayFixup_specified, Style.set_val_ne _ _ (by decide), Style.set_val_ne _ _ (by decide),
    Style.set_val_ne _ _ (by decide), Style.set_val_ne _ _ (by decide)]

theorem fixups_same {s t : Style} (h : s.SameButColours t) :
    s.postCascadeFixups.SameButColours t.postCascadeFixups := by
  refine ⟨fun p hp => ?_, ?_⟩
  · rw [fixups_val, fixups_val, h.val p hp]
    refine Style.adjusted_congr (fun q hq => h.val q ?_) p _
    rcases hq with rfl | rfl | rfl | rfl | rfl | rfl <;> rfl
  · rw [fixups_specified, fixups_specified, h.val .display rfl]

theorem Style.new_same {i i' : Option Style} (hi : (i.getD Style.initial).SameButColours (i'.getD Style.initial))
    {m m' : Matching} (hm : m.Inv) (hm' : m'.Inv) (hl : plainDecls m.decls = plainDecls m'.decls) :
    (Style.new i (some m)).SameButColours (Style.new i' (some m')) := by
  unfold Style.new
  dsimp only
  rw [Matching.cascade_eq hm, Matching.cascade_eq hm, Matching.cascade_eq hm', Matching.cascade_eq hm']
  exact fixups_same (foldl_both .late hi hl (foldl_both .early hi hl (start_same hi)))

/-! ### Style sheets -/

variable {S : SelectorEngine}

/-- what the rules say, except about colours, with their specificity -/
def taggedPlain (d : Doc) (n : NodeId) (l : List (S.Sel × Block)) : List (Nat × Decl × Bool) :=
  (l.filter fun r => hit (S.matches_ r.1 d n)).flatMap fun r => r.2.withoutColours.map fun e => (S.specificity r.1, e)

theorem taggedPlain_cons (d : Doc) (n : NodeId) (r : S.Sel × Block) (l : List (S.Sel × Block)) :
    taggedPlain d n (r :: l) = (if hit (S.matches_ r.1 d n) then r.2.withoutColours.map fun e => (S.specificity r.1, e)
      else []) ++ taggedPlain d n l := by
  simp only [taggedPlain, List.filter_cons]
  split <;> rfl

theorem taggedPlain_filter (d : Doc) (n : NodeId) (k : Nat) (l : List (S.Sel × Block)) :
    (taggedPlain d n l).filter (fun e => e.1 = k) = taggedPlain d n (l.filter fun r => S.specificity r.1 = k) := by
  induction l with
  | nil => rfl
  | cons r l ih =>
    rw [taggedPlain_cons, List.filter_append, ih, List.filter_cons]
    by_cases hk : S.specificity r.1 = k
    · simp only [hk, decide_true, if_true, taggedPlain_cons]
      congr 1
      split
      · rw [List.filter_eq_self]
        intro e he
        obtain ⟨_, _, rfl⟩ := List.mem_map.1 he
        simp
      · rfl
    · simp only [hk, decide_false, Bool.false_eq_true, if_false]
      split
      · rw [List.filter_eq_nil_iff.2, List.nil_append]
        intro e he
        obtain ⟨_, _, rfl⟩ := List.mem_map.1 he
        simpa using hk
      · rfl

theorem taggedPlain_uncoloured (d : Doc) (n : NodeId) (k : Nat) (l : List (S.Sel × Block)) :
    taggedPlain d n (l.filter fun r => S.specificity r.1 = k) = (Uncoloured d n k l).map fun e => (k, e) := by
  induction l with
  | nil => rfl
  | cons r l ih =>
    simp only [Uncoloured, List.filter_cons] at ih ⊢
    by_cases hk : S.specificity r.1 = k
    · simp only [hk, decide_true, if_true, taggedPlain_cons, ih, true_and, decide_eq_true_eq, hit_eq_true]
      split <;> simp
    · simpa only [hk, decide_false, Bool.false_eq_true, if_false, false_and] using ih

theorem taggedPlain_sorted (d : Doc) (n : NodeId) (l : List (S.Sel × Block)) :
    (taggedPlain d n (StyleSet.finish ⟨l⟩).rules).Pairwise fun a b => a.1 ≤ b.1 := by
  have key : ∀ l : List (S.Sel × Block), l.Pairwise (fun a b => S.specificity a.1 ≤ S.specificity b.1) →
      (taggedPlain d n l).Pairwise fun a b => a.1 ≤ b.1 := by
    intro l hl
    induction l with
    | nil => exact List.Pairwise.nil
    | cons r l ih =>
      obtain ⟨h1, h2⟩ := List.pairwise_cons.1 hl
      rw [taggedPlain_cons]
      have hr : ∀ e ∈ (if hit (S.matches_ r.1 d n) then r.2.withoutColours.map fun e => (S.specificity r.1, e)
          else []), e.1 = S.specificity r.1 := by
        intro e he
        split at he
        · obtain ⟨_, _, rfl⟩ := List.mem_map.1 he; rfl
        · cases he
      refine List.pairwise_append.2 ⟨List.pairwise_iff_forall_sublist.2 fun {a b} hs => ?_, ih h2, fun a ha b hb => ?_⟩
      · rw [hr a (hs.subset (by simp)), hr b (hs.subset (by simp))]
      · rw [hr a ha]
        obtain ⟨r', hr', hb⟩ := List.mem_flatMap.1 hb
        obtain ⟨_, _, rfl⟩ := List.mem_map.1 hb
        exact h1 r' (List.mem_filter.1 hr').1
  exact key _ (C24_sorted l)

theorem taggedPlain_finish {d : Doc} {n : NodeId} {l l' : List (S.Sel × Block)}
    (h : ∀ k, Uncoloured d n k l = Uncoloured d n k l') :
    taggedPlain d n (StyleSet.finish ⟨l⟩).rules = taggedPlain d n (StyleSet.finish ⟨l'⟩).rules := by
  refine sorted_unique (·.1) (taggedPlain_sorted d n l) (taggedPlain_sorted d n l') fun k => ?_
  rw [taggedPlain_filter, taggedPlain_filter, C24_stable, C24_stable, taggedPlain_uncoloured, taggedPlain_uncoloured, h]

theorem plain_declsWith (b : Block) (imp : Bool) :
    plainDecls (b.declsWith imp) = (b.withoutColours.filter fun e => e.2 = imp).map (·.1) := by
  simp only [plainDecls, Block.declsWith, Block.withoutColours, List.filter_map, List.filter_filter]
  congr 1
  refine List.filter_congr fun e _ => ?_
  simp only [Function.comp_apply, Bool.and_comm]

theorem plainDecls_append (a b : List Decl) : plainDecls (a ++ b) = plainDecls a ++ plainDecls b := List.filter_append ..

theorem plain_matching (d : Doc) (n : NodeId) (l : List (S.Sel × Block)) (imp : Bool) :
    plainDecls (((l.filter fun r => hit (S.matches_ r.1 d n)).map (·.2)).flatMap (·.declsWith imp)) =
      ((taggedPlain d n l).filter fun e => e.2.2 = imp).map (·.2.1) := by
  unfold taggedPlain
  generalize l.filter (fun r => hit (S.matches_ r.1 d n)) = m
  induction m with
  | nil => rfl
  | cons r m ih =>
    simp only [List.map_cons, List.flatMap_cons, plainDecls_append, ih, List.filter_append, List.map_append,
      plain_declsWith, List.filter_map, List.map_map]
    congr 1

end Sinab
