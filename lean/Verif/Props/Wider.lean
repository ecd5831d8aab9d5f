import Verif.Lemmas.Wider
import Verif.Props.Vertical

/-! C92: on a wider page, text takes no more lines, and no block is further down. -/

namespace Sinab

open Vertical

/-! ### Heights of lines -/

theorem LineEnd.noNewline {W : Text → ℚ} {a : ℚ} {first nl : Bool} {s d rest : Text} (h : LineEnd W a first s d rest nl)
    (hn : '\n' ∉ s ++ d) : nl = false := by
  cases h <;> simp_all

theorem Wrapped.noNewline {W : Text → ℚ} {w a : ℚ} {first : Bool} {t : Text} {lines : List BrokenLine}
    (h : Wrapped W w a first t lines) : '\n' ∉ t → ∀ l ∈ lines, l.newline = false := by
  induction h with
  | last h => intro _; simp
  | @more a first s d rest nl lines he hm hl ih =>
    intro hn l hmem
    rw [List.mem_append, not_or] at hn
    rcases List.mem_cons.1 hmem with rfl | hmem
    · exact he.noNewline hn.1
    · exact ih hn.2 l hmem

/-- a line of which all texts extend `A` above and `D` below the baseline -/
def Flat (E : TextEnv) (A D : ℚ) (l : Line) : Prop :=
  ∀ parent, (∀ e ∈ extents E l parent 0, e = (A, D)) ∧ (extents E l parent 0 ≠ [] ↔ Inks l)

theorem Flat.nil (E : TextEnv) (A D : ℚ) : Flat E A D [] := by
  intro parent
  simp [extents, Inks, itemsInked]

theorem Flat.append {E : TextEnv} {A D : ℚ} {a b : Line} (ha : Flat E A D a) (hb : Flat E A D b) : Flat E A D (a ++ b) := by
  intro parent
  rw [extents_append, inks_append, ← (ha parent).2, ← (hb parent).2]
  refine ⟨fun e he => ?_, ?_⟩
  · rcases List.mem_append.1 he with he | he
    · exact (ha parent).1 e he
    · exact (hb parent).1 e he
  · by_cases h : extents E a parent 0 = [] <;> simp [h]

theorem Flat.piece (E : TextEnv) (st : Style) (f : Font) (t : Text) :
    Flat E (ascentOf st f) (descentOf st f) [Item.text st f t false] := by
  intro parent
  rw [inks_piece]
  by_cases h : t = [] <;> simp [extents, Item.extents, h]

theorem Flat.box {E : TextEnv} {A D : ℚ} {l : Line} (h : Flat E A D l) {st : Style}
    (hs : ∀ own parent, shiftOf st own parent = 0) (a b c : Bool) : Flat E A D [Item.box st a b c l] := by
  intro parent
  rw [inks_box]
  simp only [extents, Item.extents, hs, add_zero, List.append_nil]
  exact h _

theorem Flat.join {E : TextEnv} {A D : ℚ} : ∀ {P Q : List Line}, (∀ l ∈ P, Flat E A D l) → (∀ l ∈ Q, Flat E A D l) →
    ∀ l ∈ joinLines P Q, Flat E A D l
  | [], Q, _, h2 => by simpa [joinLines] using h2
  | [a], [], h1, _ => by simpa [joinLines] using h1
  | [a], b :: B, h1, h2 => by
    intro l hl
    simp only [joinLines, List.mem_cons] at hl
    rcases hl with rfl | hl
    · exact (h1 a (by simp)).append (h2 b (by simp))
    · exact h2 l (by simp [hl])
  | a :: a' :: P, Q, h1, h2 => by
    intro l hl
    simp only [joinLines, List.mem_cons] at hl
    rcases hl with rfl | hl
    · exact h1 _ (by simp)
    · exact Flat.join (P := a' :: P) (fun m hm => h1 m (by simp at hm ⊢; tauto)) h2 l hl

theorem Flat.decorate {E : TextEnv} {A D : ℚ} {st : Style} (hs : ∀ own parent, shiftOf st own parent = 0) (c : Bool) :
    ∀ {L : List Line} (a b : Bool), (∀ l ∈ L, Flat E A D l) → ∀ l ∈ decorate st a b c L, Flat E A D l
  | [], _, _, _ => by simp [Sinab.decorate]
  | [m], _, _, h => by
    intro l hl
    simp only [Sinab.decorate, List.mem_singleton] at hl
    subst hl
    exact Flat.box (h m (by simp)) hs _ _ _
  | m :: m' :: L, a, b, h => by
    intro l hl
    simp only [Sinab.decorate, List.mem_cons] at hl
    rcases hl with rfl | hl
    · exact Flat.box (h m (by simp)) hs _ _ _
    · exact Flat.decorate hs c (L := m' :: L) false false (fun k hk => h k (by simp at hk ⊢; tauto)) l hl

theorem laysOut_flat {E : TextEnv} {w x sp v A D : ℚ} {bs : List InlineLevelBox} {L : List Line}
    (h : LaysOut E w x bs L) : inlineEven E sp v bs → inlineLevel A D bs → ∀ l ∈ L, Flat E A D l := by
  induction h with
  | nil => intro _ _; simpa using Flat.nil E A D
  | @text x st t f bs pieces L hp hL ih =>
    rintro ⟨⟨h1, hS, hE⟩, h3⟩ ⟨⟨rfl, rfl⟩, h5⟩
    obtain ⟨lines, hl, rfl⟩ := hp.wrapped h1
    refine Flat.join ?_ (ih h3 h5)
    intro m hm
    simp only [List.map_map, List.mem_map, Function.comp] at hm
    obtain ⟨k, hk, rfl⟩ := hm
    rw [hl.noNewline hE.newline k hk]
    exact Flat.piece _ _ _ _
  | @box x st first last ks bs L1 L2 h1 h2 ih1 ih2 =>
    rintro ⟨⟨h3, h4⟩, h5⟩ ⟨⟨h6, h7⟩, h8⟩
    exact Flat.join (Flat.decorate h6 _ _ _ (ih1 h4 h7)) (ih2 h5 h8)
  | abs _ ih => rintro ⟨-, h⟩ ⟨-, h'⟩; exact ih h h'
  | float _ ih => rintro ⟨-, h⟩ ⟨-, h'⟩; exact ih h h'

theorem maxAll_const (a : ℚ) : ∀ (l : List ℚ), l ≠ [] → (∀ x ∈ l, x = a) → maxAll l = max a 0
  | [], h, _ => absurd rfl h
  | [x], _, h => by rw [h x (by simp)]; rfl
  | x :: y :: l, _, h => by
    have ih := maxAll_const a (y :: l) (by simp) (fun z hz => h z (by simp at hz ⊢; tauto))
    show max x (maxAll (y :: l)) = _
    rw [ih, h x (by simp), ← max_assoc, max_self]

/-- height of a line of such text -/
theorem Flat.height {E : TextEnv} {A D : ℚ} {l : Line} (h : Flat E A D l) (root : Font) :
    (Inks l → lineHeight E root l = max A 0 + max D 0) ∧ (¬ Inks l → lineHeight E root l = 0) := by
  unfold lineHeight lineAscent lineDescent
  constructor
  · intro hi
    have hne := (h root).2.2 hi
    rw [maxAll_const A _ (by simpa using hne), maxAll_const D _ (by simpa using hne)]
    · intro x hx
      obtain ⟨e, he, rfl⟩ := List.mem_map.1 hx
      rw [(h root).1 e he]
    · intro x hx
      obtain ⟨e, he, rfl⟩ := List.mem_map.1 hx
      rw [(h root).1 e he]
  · intro hi
    have : extents E l root 0 = [] := by
      by_contra hne
      exact hi ((h root).2.1 hne)
    rw [this]
    simp [maxAll]

theorem Flat.height_le {E : TextEnv} {A D : ℚ} {l : Line} (h : Flat E A D l) (root : Font) :
    lineHeight E root l ≤ max A 0 + max D 0 := by
  by_cases hi : Inks l
  · exact ((h.height root).1 hi).le
  · rw [(h.height root).2 hi]
    have := le_max_right A 0
    have := le_max_right D 0
    linarith

theorem pageHeight_le {E : TextEnv} {A D : ℚ} (root : Font) : ∀ {L : List Line}, (∀ l ∈ L, Flat E A D l) →
    pageHeight E root L ≤ L.length * (max A 0 + max D 0)
  | [], _ => by simp [pageHeight]
  | l :: L, h => by
    have ih := pageHeight_le root (L := L) (fun m hm => h m (by simp [hm]))
    have := (h l (by simp)).height_le root
    simp only [pageHeight, List.map_cons, List.sum_cons, List.length_cons, Nat.cast_add, Nat.cast_one] at ih ⊢
    linarith

theorem pageHeight_eq {E : TextEnv} {A D : ℚ} (root : Font) : ∀ {L : List Line}, (∀ l ∈ L, Flat E A D l) →
    (∀ l ∈ L, Inks l) → pageHeight E root L = L.length * (max A 0 + max D 0)
  | [], _, _ => by simp [pageHeight]
  | l :: L, h, hi => by
    have ih := pageHeight_eq root (L := L) (fun m hm => h m (by simp [hm])) (fun m hm => hi m (by simp [hm]))
    have := ((h l (by simp)).height root).1 (hi l (by simp))
    simp only [pageHeight, List.map_cons, List.sum_cons, List.length_cons, Nat.cast_add, Nat.cast_one] at ih ⊢
    linarith

theorem AllInk.all {p : Prop} {L : List Line} (h : AllInk p L) (hp : p) : ∀ l ∈ L, Inks l := by
  cases L with
  | nil => exact h.elim
  | cons l L =>
    intro m hm
    rcases List.mem_cons.1 hm with rfl | hm
    · exact h.1 hp
    · exact h.2 m hm

theorem laysOut_dark {E : TextEnv} {w x sp v : ℚ} {bs : List InlineLevelBox} {L : List Line} (h : LaysOut E w x bs L) :
    inlineEven E sp v bs → inlineText bs = [] → L.flatMap itemsInked = [] := by
  induction h with
  | nil => intro _ _; rfl
  | @text x st t f bs pieces L hp hL ih =>
    rintro ⟨⟨h1, hS, hE⟩, h3⟩ ht
    obtain ⟨lines, hl, rfl⟩ := hp.wrapped h1
    rw [inlineText, List.append_eq_nil_iff] at ht
    have ht1 : t = [] := ht.1
    rw [joinLines_inked, ih h3 ht.2, List.append_nil, List.flatMap_eq_nil_iff]
    intro m hm
    simp only [List.map_map, List.mem_map, Function.comp] at hm
    obtain ⟨k, hk, rfl⟩ := hm
    have hf := hl.flatten
    rw [ht1] at hf
    have := List.flatten_eq_nil_iff.1 hf.symm k.text (List.mem_map_of_mem hk)
    rw [BrokenLine.text, List.append_eq_nil_iff] at this
    by_contra hne
    exact (inks_piece ..).1 hne this.1
  | @box x st first last ks bs L1 L2 h1 h2 ih1 ih2 =>
    rintro ⟨⟨h3, h4⟩, h5⟩ ht
    rw [inlineText, List.append_eq_nil_iff] at ht
    rw [joinLines_inked, decorate_inked, ih1 h4 ht.1, ih2 h5 ht.2, List.append_nil]
  | abs _ ih =>
    rintro ⟨-, h⟩ ht
    exact ih h (by simpa [inlineText, InlineLevelBox.text] using ht)
  | float _ ih =>
    rintro ⟨-, h⟩ ht
    exact ih h (by simpa [inlineText, InlineLevelBox.text] using ht)

theorem wider_lines {E : TextEnv} {w w' sp : ℚ} (h0 : 0 ≤ w) (hw : w ≤ w') {bs : List InlineLevelBox} {L L' : List Line}
    (h : LaysOut E w 0 bs L) (h' : LaysOut E w' 0 bs L') (hE : inlineEven E sp w bs) : L'.length ≤ L.length := by
  have := wider_content (c := 0) (c' := 0) hw h h' hE le_rfl h0 le_rfl (h0.trans hw) (.inr ⟨rfl, .inl le_rfl⟩)
  have h1 := List.length_pos_of_ne_nil h.ne_nil
  have h2 := List.length_pos_of_ne_nil h'.ne_nil
  rcases this with h3 | ⟨h3, -⟩ <;> omega

theorem wider_height {E : TextEnv} {w w' sp A D : ℚ} (h0 : 0 ≤ w) (hw : w ≤ w') {bs : List InlineLevelBox}
    {L L' : List Line} (root : Font) (h : LaysOut E w 0 bs L) (h' : LaysOut E w' 0 bs L') (hE : inlineEven E sp w bs)
    (hA : inlineLevel A D bs) : pageHeight E root L' ≤ pageHeight E root L := by
  by_cases ht : inlineText bs = []
  · have hd := List.flatMap_eq_nil_iff.1 (laysOut_dark h' hE ht)
    have hf := laysOut_flat h' hE hA
    have : pageHeight E root L' = 0 := by
      unfold pageHeight
      apply List.sum_eq_zero
      intro x hx
      obtain ⟨l, hl, rfl⟩ := List.mem_map.1 hx
      exact ((hf l hl).height root).2 fun hi => hi (hd l hl)
    rw [this]
    apply List.sum_nonneg
    intro x hx
    obtain ⟨l, -, rfl⟩ := List.mem_map.1 hx
    exact lineHeight_nonneg ..
  · rw [pageHeight_eq root (laysOut_flat h hE hA) ((laysOut_shows h hE le_rfl h0).all ⟨rfl, ht⟩)]
    refine (pageHeight_le root (laysOut_flat h' hE hA)).trans ?_
    have hl : ((L'.length : Nat) : ℚ) ≤ L.length := Nat.cast_le.2 (wider_lines h0 hw h h' hE)
    refine mul_le_mul_of_nonneg_right hl (add_nonneg (le_max_right ..) (le_max_right ..))

/-! ### Blocks -/

namespace Vertical

/-- items that differ in the size of gaps only -/
def ItemLe : Item → Item → Prop
  | .margin m, .margin m' => m = m'
  | .gap d, .gap d' => d ≤ d'
  | _, _ => False

theorem ItemLe.refl : ∀ i : Item, ItemLe i i
  | .margin _ => rfl
  | .gap d => le_refl d

theorem ItemLe.refls (l : List Item) : List.Forall₂ ItemLe l l := List.forall₂_same.2 fun i _ => ItemLe.refl i

theorem itemLe_of_eq {l l' : List Item} (h : l = l') : List.Forall₂ ItemLe l l' := h ▸ ItemLe.refls l

theorem ItemLe.isMargin : ∀ {i j : Item}, ItemLe i j → i.isMargin = j.isMargin
  | .margin _, .margin _, _ => rfl
  | .gap _, .gap _, _ => rfl
  | .margin _, .gap _, h => h.elim
  | .gap _, .margin _, h => h.elim

theorem itemLe_all {l l' : List Item} (h : List.Forall₂ ItemLe l l') : l.all Item.isMargin = l'.all Item.isMargin := by
  induction h with
  | nil => rfl
  | cons h _ ih => rw [List.all_cons, List.all_cons, h.isMargin, ih]

theorem itemLe_leading {l l' : List Item} (h : List.Forall₂ ItemLe l l') : leading l = leading l' := by
  induction h with
  | nil => rfl
  | @cons i j _ _ h _ ih =>
    cases i <;> cases j <;> first | exact h.elim | (simp only [leading]; try (rw [ih, show _ = _ from h]))

theorem itemLe_dropLast {l l' : List Item} (h : List.Forall₂ ItemLe l l') : List.Forall₂ ItemLe l.dropLast l'.dropLast := by
  induction h with
  | nil => exact .nil
  | cons h h2 ih =>
    cases h2 with
    | nil => exact .nil
    | cons h3 h4 => exact .cons h ih

/-- not further down -/
def StateLe (s s' : State) : Prop := s.pos ≤ s'.pos ∧ s.pend = s'.pend

theorem StateLe.run {l l' : List Item} (h : List.Forall₂ ItemLe l l') : ∀ {s s' : State}, StateLe s s' →
    StateLe (s.run l) (s'.run l') := by
  induction h with
  | nil => exact fun h => h
  | @cons i j _ _ h _ ih =>
    intro s s' hs
    apply ih
    cases i <;> cases j
    · refine ⟨hs.1, ?_⟩
      have h : _ = _ := h
      simp only [State.step, hs.2, h]
    · exact h.elim
    · exact h.elim
    · refine ⟨?_, rfl⟩
      have h : _ ≤ _ := h
      have h1 := hs.1
      simp only [State.step, hs.2]
      linarith

mutual

theorem VBox.shorter_items : ∀ (v v' : VBox), v.shorter v' → List.Forall₂ ItemLe (v.items false) (v'.items false)
  | .out, .out, _ => .nil
  | .out, .block .., h => h.elim
  | .block .., .out, h => h.elim
  | .block mt mb pt pb dy height root lines kids, .block mt' mb' pt' pb' dy' height' root' lines' kids', h => by
    simp only [VBox.shorter] at h
    obtain ⟨⟨rfl, rfl, rfl, rfl, rfl, rfl, rfl⟩, hl, hk⟩ := h
    have hc : List.Forall₂ ItemLe
        (match (generalizing := false) lines with | some l => [Item.gap l] | none => itemsOf false kids)
        (match (generalizing := false) lines' with | some l => [Item.gap l] | none => itemsOf false kids') := by
      cases hl with
      | none => exact allShorter_items kids kids' hk
      | some h => exact .cons h .nil
    have happ : ∀ {a a' b b' : List Item}, List.Forall₂ ItemLe a a' → List.Forall₂ ItemLe b b' →
        List.Forall₂ ItemLe (a ++ b) (a' ++ b') := fun h1 h2 => List.rel_append h1 h2
    simp only [VBox.items]
    refine .cons rfl (happ (happ (ItemLe.refls _) ?_) (ItemLe.refls _))
    cases height with
    | none => exact happ hc (ItemLe.refls _)
    | some h =>
      simp only [Bool.false_and, Bool.false_eq_true, if_false]
      refine happ ?_ (ItemLe.refls _)
      split
      · exact itemLe_of_eq (congrArg (List.map Item.margin) (itemLe_leading hc))
      · exact .nil

theorem allShorter_items : ∀ (vs vs' : List VBox), allShorter vs vs' →
    List.Forall₂ ItemLe (itemsOf false vs) (itemsOf false vs')
  | [], [], _ => .nil
  | [], _ :: _, h => h.elim
  | _ :: _, [], h => h.elim
  | v :: vs, v' :: vs', h => by
    simp only [allShorter] at h
    simp only [itemsOf]
    exact List.rel_append (VBox.shorter_items v v' h.1) (allShorter_items vs vs' h.2)

end

theorem VBox.shorter_through {v v' : VBox} (h : v.shorter v') : v.through false = v'.through false :=
  itemLe_all (v.shorter_items v' h)

theorem VBox.shorter_top {v v' : VBox} (h : v.shorter v') {s s' : State} (hs : StateLe s s') :
    v.top false s ≤ v'.top false s' := by
  unfold VBox.top
  rw [itemLe_leading (itemLe_dropLast (v.shorter_items v' h)), hs.2]
  have := hs.1
  linarith

/-- edges that are not further down -/
def EdgesLe : List (Length × Length) → List (Length × Length) → Prop :=
  List.Forall₂ fun e e' => e.1 ≤ e'.1 ∧ e.2 ≤ e'.2

/-- the upper edge of the block around -/
def OptLe (p p' : Option Length) : Prop := Option.Rel (· ≤ ·) p p'

mutual

theorem VBox.shorter_edges : ∀ (v v' : VBox), v.shorter v' → ∀ (s s' : State) (y y' : Length), StateLe s s' → y ≤ y' →
    EdgesLe (v.edges false s y) (v'.edges false s' y')
  | .out, .out, _ => by
    intro s s' y y' _ _
    simp only [VBox.edges]
    exact .nil
  | .out, .block .., h => h.elim
  | .block .., .out, h => h.elim
  | .block mt mb pt pb dy height root lines kids, .block mt' mb' pt' pb' dy' height' root' lines' kids', h => by
    intro s s' y y' hs hy
    have ht := VBox.shorter_through h
    have hi := (VBox.shorter_items _ _ h)
    have hr := StateLe.run hi hs
    simp only [VBox.shorter] at h
    obtain ⟨⟨rfl, rfl, rfl, rfl, rfl, rfl, rfl⟩, hl, hk⟩ := h
    have hin := StateLe.run (ItemLe.refls (Item.margin mt :: gapUnless (!root && pt == 0) pt)) hs
    have hkids := allShorter_edges kids kids' hk _ _ (if (!root && pt == 0) = true then some y else none)
      (if (!root && pt == 0) = true then some y' else none) hin (by
        split
        · exact .some hy
        · exact .none)
    simp only [VBox.edges, List.map_cons]
    refine .cons ⟨by linarith, ?_⟩ ?_
    · rw [ht]
      split
      · linarith
      · have := hr.1
        linarith
    · rw [List.forall₂_map_left_iff, List.forall₂_map_right_iff]
      exact hkids.imp fun e e' h => ⟨by linarith [h.1], by linarith [h.2]⟩

theorem allShorter_edges : ∀ (vs vs' : List VBox), allShorter vs vs' → ∀ (s s' : State) (p p' : Option Length),
    StateLe s s' → OptLe p p' → EdgesLe (edgesOf false s p vs) (edgesOf false s' p' vs')
  | [], [], _ => by
    intro s s' p p' _ _
    simp only [edgesOf]
    exact .nil
  | [], _ :: _, h => h.elim
  | _ :: _, [], h => h.elim
  | v :: vs, v' :: vs', h => by
    intro s s' p p' hs hp
    simp only [allShorter] at h
    have ht := VBox.shorter_through h.1
    have htop := VBox.shorter_top h.1 hs
    simp only [edgesOf, ht]
    refine List.rel_append (VBox.shorter_edges v v' h.1 _ _ _ _ hs ?_)
      (allShorter_edges vs vs' h.2 _ _ _ _ (StateLe.run (v.shorter_items v' h.1) hs) ?_)
    · split
      · cases hp with
        | none => exact htop
        | some h => exact h
      · exact htop
    · split
      · exact hp
      · exact .none

end

/-! ### Layout of blocks -/

/-- `f` is a layout of `b` -/
def Ran (boxL : BoxLayout) (cb : ContainingBlock) (b : BlockLevelBox) (f : Fragment) : Prop :=
  ∃ rank abs floats out, boxL b cb rank abs floats = .ok (f, out)

theorem layoutEach_ran {boxL : BoxLayout} {cb : ContainingBlock} : ∀ {bs : List BlockLevelBox}
    {rank : Nat} {abs out : List AbsFragment} {fs : List Fragment}, layoutEach boxL cb rank bs abs = .ok (fs, out) →
    List.Forall₂ (Ran boxL cb) bs fs
  | [], _, _, _, _, e => by
    cases e
    exact .nil
  | b :: bs, _, _, _, _, e => by
    obtain ⟨⟨f, a⟩, e1, e⟩ := bind_eq_ok.1 e
    obtain ⟨⟨fs, a'⟩, e2, e⟩ := bind_eq_ok.1 e
    cases e
    exact .cons ⟨_, _, _, _, e1⟩ (layoutEach_ran e2)

theorem layoutAndPlaceEach_ran {boxL : BoxLayout} {cb : ContainingBlock} :
    ∀ {bs : List BlockLevelBox} {rank : Nat} {abs out : List AbsFragment} {fs' : List Fragment}
      {st st' : PlacementState}, layoutAndPlaceEach boxL cb rank bs abs st = .ok (fs', out, st') →
    ∃ fs, List.Forall₂ (Ran boxL cb) bs fs ∧ placeAll st fs = .ok (fs', st')
  | [], _, _, _, _, _, _, e => by
    cases e
    exact ⟨[], .nil, rfl⟩
  | b :: bs, _, _, _, _, _, _, e => by
    obtain ⟨⟨f, a⟩, e1, e⟩ := bind_eq_ok.1 e
    obtain ⟨⟨f', st1⟩, e2, e⟩ := bind_eq_ok.1 e
    obtain ⟨⟨fs', a', st2⟩, e3, e⟩ := bind_eq_ok.1 e
    cases e
    obtain ⟨fs, h1, h2⟩ := layoutAndPlaceEach_ran e3
    refine ⟨f :: fs, .cons ⟨_, _, _, _, e1⟩ h1, ?_⟩
    simp only [placeAll, e2, h2, bind, Except.bind, pure, Except.pure]

theorem children_ran {boxL : BoxLayout} {cb : ContainingBlock} {bs : List BlockLevelBox} {rank : Nat}
    {abs out : List AbsFragment} {floats coll : Bool} {fc : FlowChildren}
    (e : layoutBlockLevelChildren boxL bs cb rank abs floats coll = .ok (fc, out)) :
    ∃ fs st, List.Forall₂ (Ran boxL cb) bs fs ∧ placeAll (PlacementState.start coll) fs = .ok (fc.fragments, st) := by
  obtain ⟨⟨fs', a, st⟩, e1, e⟩ := bind_eq_ok.1 e
  obtain ⟨adj, -, e⟩ := bind_eq_ok.1 e
  cases e
  cases floats with
  | true =>
    obtain ⟨fs, h1, h2⟩ := layoutAndPlaceEach_ran e1
    exact ⟨fs, st, h1, h2⟩
  | false =>
    obtain ⟨⟨fs, a1⟩, e2, e1⟩ := bind_eq_ok.1 e1
    obtain ⟨⟨fs1, st1⟩, e3, e1⟩ := bind_eq_ok.1 e1
    cases e1
    exact ⟨fs, _, layoutEach_ran e2, e3⟩

theorem vertical_place {w : Length} {h : LengthOrAuto} (b : BlockLevelBox) {f f' : Fragment} {st st' : PlacementState}
    (e : placeFragment st f = .ok (f', st')) : vertical w h b f' = vertical w h b f := by
  cases f with
  | box style g m children =>
    have : f' = .box style g m children ∨ ∃ d, f' = .box style { g with contentRect := g.contentRect.addBlock d } m children := by
      simp only [placeFragment] at e
      split at e
      · split at e
        · cases e
        · split at e
          · cases e
            exact .inl rfl
          · cases e
            exact .inr ⟨_, rfl⟩
      · split at e
        · cases e
          exact .inr ⟨_, rfl⟩
        · cases e
          exact .inr ⟨_, rfl⟩
    rcases this with rfl | ⟨d, rfl⟩
    · rfl
    · exact vertical_move ..
  | anonymous rect children mode =>
    simp only [placeFragment] at e
    split at e
    · cases e
    · split at e
      · cases e
      · cases e
        rw [(vertical_other w h b (fun _ _ _ _ => by simp)).1, (vertical_other w h b (fun _ _ _ _ => by simp)).1]
  | text => cases e

theorem verticals_place {w : Length} {h : LengthOrAuto} : ∀ (bs : List BlockLevelBox) {fs fs' : List Fragment}
    {st st' : PlacementState}, placeAll st fs = .ok (fs', st') → verticals w h bs fs' = verticals w h bs fs
  | [], [], _, _, _, _ => by simp only [verticals]
  | [], _ :: _, _, _, _, _ => by simp only [verticals]
  | _ :: _, [], _, _, _, e => by
    cases e
    simp only [verticals]
  | b :: bs, f :: fs, _, _, _, e => by
    obtain ⟨⟨f', st1⟩, e1, e⟩ := bind_eq_ok.1 e
    obtain ⟨⟨fs', st2⟩, e2, e⟩ := bind_eq_ok.1 e
    cases e
    simp only [verticals, vertical_place b e1, verticals_place bs e2]

/-- a layout of boxes that is not longer on a wider page -/
def BoxesShorter (E : TextEnv) (boxL : BoxLayout) : Prop :=
  ∀ (b : BlockLevelBox) (cb cb' : ContainingBlock) (f f' : Fragment), Ran boxL cb b f → Ran boxL cb' b f' →
    cb.inlineSize ≤ cb'.inlineSize → cb'.blockSize = cb.blockSize → b.fluid E cb.inlineSize →
    (vertical cb'.inlineSize cb'.blockSize b f').shorter (vertical cb.inlineSize cb.blockSize b f)

theorem ran_shorter {E : TextEnv} {boxL : BoxLayout} (hb : BoxesShorter E boxL) {cb cb' : ContainingBlock}
    (hw : cb.inlineSize ≤ cb'.inlineSize) (hh : cb'.blockSize = cb.blockSize) {bs : List BlockLevelBox} {fs : List Fragment}
    (h : List.Forall₂ (Ran boxL cb) bs fs) : ∀ {fs' : List Fragment}, List.Forall₂ (Ran boxL cb') bs fs' →
    blocksFluid E cb.inlineSize bs → allShorter (verticals cb'.inlineSize cb'.blockSize bs fs')
      (verticals cb.inlineSize cb.blockSize bs fs) := by
  induction h with
  | nil =>
    intro fs' h' _
    cases h'
    simp only [verticals, allShorter]
  | cons h _ ih =>
    intro fs' h' hf
    cases h' with
    | cons h' h2' =>
      simp only [verticals, allShorter]
      exact ⟨hb _ _ _ _ _ h h' hw hh hf.1, ih h2' hf.2⟩

theorem children_shorter {E : TextEnv} {boxL : BoxLayout} (hb : BoxesShorter E boxL) {cb cb' : ContainingBlock}
    (hw : cb.inlineSize ≤ cb'.inlineSize) (hh : cb'.blockSize = cb.blockSize) {bs : List BlockLevelBox} {rank rank' : Nat}
    {abs out abs' out' : List AbsFragment} {floats coll floats' coll' : Bool} {fc fc' : FlowChildren}
    (e : layoutBlockLevelChildren boxL bs cb rank abs floats coll = .ok (fc, out))
    (e' : layoutBlockLevelChildren boxL bs cb' rank' abs' floats' coll' = .ok (fc', out'))
    (hf : blocksFluid E cb.inlineSize bs) :
    allShorter (verticals cb'.inlineSize cb'.blockSize bs fc'.fragments)
      (verticals cb.inlineSize cb.blockSize bs fc.fragments) := by
  obtain ⟨fs, st, h1, h2⟩ := children_ran e
  obtain ⟨fs', st', h1', h2'⟩ := children_ran e'
  rw [verticals_place bs h2, verticals_place bs h2']
  exact ran_shorter hb hw hh h1 h1' hf

theorem blockIn_shorter {w w' : Length} {h : LengthOrAuto} {style : Style} {root : Bool} {lines lines' : Option Length}
    {kids kids' : List VBox} (hs : Steady style) (hl : Option.Rel (· ≤ ·) lines' lines) (hk : allShorter kids' kids) :
    (blockIn w' h style root lines' kids').shorter (blockIn w h style root lines kids) := by
  unfold blockIn
  simp only [VBox.shorter]
  refine ⟨⟨hs.marginTop _ _, hs.marginBottom _ _, hs.above _ _, hs.below _ _, ?_, trivial, trivial⟩, hl, hk⟩
  unfold relativeShift
  split <;> rfl

/-- height of the lines in a block -/
theorem ifc_shorter {E : TextEnv} {st : Style} {ibs : List InlineLevelBox} {cb cb' : ContainingBlock} {rank rank' : Nat}
    {abs out abs' out' : List AbsFragment} {fc fc' : FlowChildren} (e : ifcLayout E st ibs cb rank abs = .ok (fc, out))
    (e' : ifcLayout E st ibs cb' rank' abs' = .ok (fc', out')) (hw : cb.inlineSize ≤ cb'.inlineSize)
    (hf : (BlockContainer.inlineFormattingContext st ibs).fluid E cb.inlineSize) :
    fc'.fragments.length ≤ fc.fragments.length ∧ fc'.blockSize ≤ fc.blockSize ∧ fc.margins = .zero ∧ fc'.margins = .zero := by
  obtain ⟨h0, ha, sp, A, D, hE, hA⟩ := hf
  obtain ⟨L, new, h1, -, h3⟩ := ifcLayout_spec E st ibs cb rank abs ha
  obtain ⟨L', new', h1', -, h3'⟩ := ifcLayout_spec E st ibs cb' rank' abs' ha
  rw [h3] at e
  rw [h3'] at e'
  cases e
  cases e'
  refine ⟨?_, wider_height h0 hw _ h1 h1' hE hA, rfl, rfl⟩
  rw [placeLines_length, placeLines_length]
  exact wider_lines h0 hw h1 h1' hE

theorem lines_shorter {cb cb' : ContainingBlock} {style : Style} {kind : BlockLevelKind} {fc fc' : FlowChildren}
    (hh : cb'.blockSize = cb.blockSize) (h : fc'.blockSize ≤ fc.blockSize) (hm : fc.margins = .zero) (hm' : fc'.margins = .zero) :
    (heightIn cb'.blockSize style).autoIs (collapseWithChildren (inFlowSizes cb' style kind) fc').2 ≤
    (heightIn cb.blockSize style).autoIs (collapseWithChildren (inFlowSizes cb style kind) fc).2 := by
  rw [hh]
  cases heightIn cb.blockSize style with
  | length l => exact le_rfl
  | auto =>
    have hz : CollapsedBlockMargins.zero = ⟨false, .zero, .zero⟩ := rfl
    simpa only [LengthOrAuto.autoIs, collapseWithChildren, hm, hm', hz, Bool.and_false, Bool.false_eq_true, if_false,
      solve_zero, add_zero, ite_self] using h

theorem boxesShorter (E : TextEnv) : ∀ n, BoxesShorter E (boxLayout E n)
  | 0 => by
    rintro b cb cb' f f' ⟨_, _, _, _, e⟩
    cases e
  | n + 1 => by
    rintro b cb cb' f f' ⟨rank, abs, floats, out, e⟩ ⟨rank', abs', floats', out', e'⟩ hw hh hf
    rw [boxLayout] at e e'
    cases b with
    | outOfFlowAbsolutelyPositionedBox style c =>
      simp only [vertical, VBox.shorter]
    | outOfFlowFloatBox style c =>
      simp only [vertical, VBox.shorter]
    | sameFormattingContextBlock style c =>
      simp only [boxLayoutWith] at e e'
      obtain ⟨fc, a, o, more, x, e1, rfl⟩ := layoutInFlow_more e
      obtain ⟨fc', a', o', more', x', e1', rfl⟩ := layoutInFlow_more e'
      obtain ⟨hs, hc⟩ := hf
      have hw' := hs.width _ _ hw
      simp only [vertical]
      cases c with
      | blockLevelBoxes bs =>
        simp only [verticalIn]
        rw [hh] at e1' ⊢
        refine blockIn_shorter hs .none ?_
        rw [verticals_append _ _ more (children_ok (boxesOk E n) e1).1,
          verticals_append _ _ more' (children_ok (boxesOk E n) e1').1]
        exact children_shorter (boxesShorter E n) (cb := ⟨_, _, _⟩) (cb' := ⟨_, _, _⟩) hw' rfl e1 e1' hc
      | inlineFormattingContext st ibs =>
        obtain ⟨-, h2, h3, h4⟩ := ifc_shorter e1 e1' hw' hc
        simp only [verticalIn]
        have hl := lines_shorter (style := style) (kind := .sameFormattingContextBlock) hh h2 h3 h4
        rw [hh] at hl ⊢
        exact blockIn_shorter hs (.some hl) trivial
    | independent style bfc =>
      cases bfc with
      | mk c fl =>
        simp only [boxLayoutWith] at e e'
        obtain ⟨fc1, a, o, more, x, e1, rfl⟩ := layoutInFlow_more e
        obtain ⟨fc1', a', o', more', x', e1', rfl⟩ := layoutInFlow_more e'
        obtain ⟨⟨fc, a1⟩, e2, e1⟩ := bind_eq_ok.1 e1
        cases e1
        obtain ⟨⟨fc', a1'⟩, e2', e1'⟩ := bind_eq_ok.1 e1'
        cases e1'
        rw [collapse_root rfl rfl, collapse_root rfl rfl]
        obtain ⟨hs, hc⟩ := hf
        have hw' := hs.width _ _ hw
        simp only [vertical]
        cases c with
        | blockLevelBoxes bs =>
          simp only [verticalIn]
          rw [hh] at e2' ⊢
          refine blockIn_shorter hs .none ?_
          rw [verticals_append _ _ more (children_ok (boxesOk E n) e2).1,
            verticals_append _ _ more' (children_ok (boxesOk E n) e2').1]
          exact children_shorter (boxesShorter E n) (cb := ⟨_, _, _⟩) (cb' := ⟨_, _, _⟩) hw' rfl e2 e2' hc
        | inlineFormattingContext st ibs =>
          obtain ⟨-, h2, h3, h4⟩ := ifc_shorter e2 e2' hw' hc
          simp only [verticalIn]
          have hl := lines_shorter (style := style) (kind := .establishesAnIndependentFormattingContext) hh h2 h3 h4
          rw [hh] at hl ⊢
          exact blockIn_shorter hs (.some hl) trivial

end Vertical

/-! ## C92 -/

/-- C92 (part): a wider block takes no more lines for even text (see `EvenText`). -/
theorem C92_lines_partial (E : TextEnv) (st : Style) (ibs : List InlineLevelBox) (cb cb' : ContainingBlock)
    (rank rank' : Nat) (abs out abs' out' : List AbsFragment) (fc fc' : FlowChildren) (sp : ℚ)
    (e : ifcLayout E st ibs cb rank abs = .ok (fc, out)) (e' : ifcLayout E st ibs cb' rank' abs' = .ok (fc', out'))
    (h0 : 0 ≤ cb.inlineSize) (hw : cb.inlineSize ≤ cb'.inlineSize) (ha : inlineAbsOk ibs)
    (hE : inlineEven E sp cb.inlineSize ibs) : fc'.fragments.length ≤ fc.fragments.length := by
  obtain ⟨L, new, h1, -, h3⟩ := ifcLayout_spec E st ibs cb rank abs ha
  obtain ⟨L', new', h1', -, h3'⟩ := ifcLayout_spec E st ibs cb' rank' abs' ha
  rw [h3] at e
  rw [h3'] at e'
  cases e
  cases e'
  rw [placeLines_length, placeLines_length]
  exact wider_lines h0 hw h1 h1' hE

/-- C92 (part): nor is it higher, if all texts are of one height. -/
theorem C92_height_partial (E : TextEnv) (st : Style) (ibs : List InlineLevelBox) (cb cb' : ContainingBlock)
    (rank rank' : Nat) (abs out abs' out' : List AbsFragment) (fc fc' : FlowChildren) (sp A D : ℚ)
    (e : ifcLayout E st ibs cb rank abs = .ok (fc, out)) (e' : ifcLayout E st ibs cb' rank' abs' = .ok (fc', out'))
    (h0 : 0 ≤ cb.inlineSize) (hw : cb.inlineSize ≤ cb'.inlineSize) (ha : inlineAbsOk ibs)
    (hE : inlineEven E sp cb.inlineSize ibs) (hA : inlineLevel A D ibs) : fc'.blockSize ≤ fc.blockSize :=
  (ifc_shorter e e' hw ⟨h0, ha, sp, A, D, hE, hA⟩).2.1

/-- C92 (part): on a wider page of the same height no block is further down and none ends further
down, if texts are even and of one height in each block and no vertical length depends on the width. -/
theorem C92_page_partial (E : TextEnv) (bs : List BlockLevelBox) (floats : Bool) (v v' : PVec2 Length)
    (fs fs' : List Fragment) (h : rootLayout E (.mk (.blockLevelBoxes bs) floats) v = .ok fs)
    (h' : rootLayout E (.mk (.blockLevelBoxes bs) floats) v' = .ok fs') (hx : v.x ≤ v'.x) (hy : v'.y = v.y)
    (hf : blocksFluid E v.x bs) :
    List.Forall₂ (fun e' e => e'.1 ≤ e.1 ∧ e'.2 ≤ e.2) (drawnOf 0 bs fs') (drawnOf 0 bs fs) := by
  rw [C78_positions_partial E bs floats v fs h, C78_positions_partial E bs floats v' fs' h']
  refine allShorter_edges _ _ ?_ _ _ _ _ ⟨le_rfl, rfl⟩ .none
  obtain ⟨⟨fc, abs⟩, e1, h⟩ := bind_eq_ok.1 h
  obtain ⟨more, -, h⟩ := bind_eq_ok.1 h
  cases h
  obtain ⟨⟨fc1, a⟩, e2, e1⟩ := bind_eq_ok.1 e1
  cases e1
  obtain ⟨⟨fc', abs'⟩, e1', h'⟩ := bind_eq_ok.1 h'
  obtain ⟨more', -, h'⟩ := bind_eq_ok.1 h'
  cases h'
  obtain ⟨⟨fc1', a'⟩, e2', e1'⟩ := bind_eq_ok.1 e1'
  cases e1'
  rw [verticals_append _ _ more (children_ok (boxesOk E _) e2).1,
    verticals_append _ _ more' (children_ok (boxesOk E _) e2').1]
  exact children_shorter (boxesShorter E _) (cb := ⟨_, _, _⟩) (cb' := ⟨_, _, _⟩) hx (congrArg LengthOrAuto.length hy) e2 e2' hf

/-- C92 as stated: a wider block never takes more lines for the same text. -/
def C92_full : Prop :=
  ∀ (E : TextEnv) (st : Style) (ibs : List InlineLevelBox) (cb cb' : ContainingBlock) (rank rank' : Nat)
    (abs out abs' out' : List AbsFragment) (fc fc' : FlowChildren),
    (∀ f a b, E.width f (a ++ b) = E.width f a + E.width f b) → (∀ f t, 0 ≤ E.width f t) →
    ifcLayout E st ibs cb rank abs = .ok (fc, out) → ifcLayout E st ibs cb' rank' abs' = .ok (fc', out') →
    0 ≤ cb.inlineSize → cb.inlineSize ≤ cb'.inlineSize → inlineAbsOk ibs →
    fc'.fragments.length ≤ fc.fragments.length

/-- an `i` is 2 wide, all else is 3 wide -/
def slimEnv : TextEnv := ⟨fun _ => demoFont, fun _ t => (t.map fun c => if c = 'i' then (2 : ℚ) else 3).sum⟩

/-- `foo <b>i</b>` -/
def slimBoxes : List InlineLevelBox :=
  [.textRun plainStyle "foo ".toList demoFont, .inlineBox plainStyle true true [.textRun plainStyle "i".toList demoFont]]

/-- texts of the lines of a block of some width -/
def linesIn (E : TextEnv) (bs : List InlineLevelBox) (w : Length) : Option (List (List Text)) :=
  match ifcLayout E plainStyle bs ⟨w, .auto, (.horizontalTb, .ltr)⟩ 0 [] with
  | .ok (fc, _) => some (fc.fragments.map fun f => f.leaves.map (·.2))
  | .error _ => none

/-- The space behind `foo` is dropped where it does not fit; then the narrow `i` of the next
element fits behind `foo`.  On the wider page there is a space, and `i` is moved to the next line. -/
theorem C92_full_false : ¬ C92_full := by
  intro h
  have e1 : linesIn slimEnv slimBoxes 11 = some [["foo".toList, "i".toList]] := by decide +kernel
  have e2 : linesIn slimEnv slimBoxes 12 = some [["foo ".toList], ["i".toList]] := by decide +kernel
  unfold linesIn at e1 e2
  split at e1
  · rename_i fc out h1
    split at e2
    · rename_i fc' out' h2
      have := h slimEnv plainStyle slimBoxes _ _ 0 0 [] out [] out' fc fc' (by simp [slimEnv])
        (fun f t => by
          simp only [slimEnv]
          apply List.sum_nonneg
          intro x hx
          obtain ⟨c, -, rfl⟩ := List.mem_map.1 hx
          split <;> norm_num) h1 h2 (by norm_num) (by norm_num)
        ⟨trivial, ⟨trivial, trivial⟩, trivial⟩
      have l1 := congrArg List.length (Option.some.inj e1)
      have l2 := congrArg List.length (Option.some.inj e2)
      simp only [List.length_map, List.length_cons, List.length_nil] at l1 l2
      omega
    · cases e2
  · cases e1

/-! ### Examples -/

theorem demo_spaced : Spaced (demoEnv.width demoFont) 10 where
  empty := by simp [demoEnv]
  part := demo_mono
  space t := by simp only [demoEnv, List.length_append, List.length_singleton]; push_cast; linarith

/-- a short text is even on a page of some width -/
theorem demo_even {t : Text} {k : Nat} (h1 : '-' ∉ t) (h2 : '\n' ∉ t)
    (h3 : ∀ i ∈ List.range t.length, (t.drop i).take 2 ≠ [' ', ' '])
    (h4 : ∀ i ∈ List.range (t.length + 1), ∀ j ∈ List.range (t.length + 1),
      (∀ c ∈ (t.drop i).take j, c ≠ ' ' ∧ c ≠ '\n' ∧ c ≠ '-') → ((t.drop i).take j).length ≤ k) :
    EvenText (demoEnv.width demoFont) 10 (10 * (k + 1)) t where
  hyphen := h1
  newline := h2
  single a b ht := h3 a.length (by rw [ht]; simp) (by rw [ht]; simp)
  wide a u b ht hu := by
    simp only [demoEnv]
    have := List.length_pos_of_ne_nil hu.1
    have : (1 : ℚ) ≤ (u.length : ℚ) := by exact_mod_cast this
    linarith
  fits a u b ht hu := by
    have hl : u = (t.drop a.length).take u.length := by rw [ht]; simp
    have := h4 a.length (by rw [ht]; simp; omega) u.length (by rw [ht]; simp; omega) (by
      rw [← hl]
      intro c hc
      have := hu c hc
      unfold isBreakChar at this
      tauto)
    rw [← hl] at this
    have h : (u.length : ℚ) ≤ k := by exact_mod_cast this
    simp only [demoEnv, List.length_cons]
    push_cast
    linarith

/-- `ab <b>cd ef</b>` -/
def evenBoxes : List InlineLevelBox :=
  [.textRun plainStyle "ab ".toList demoFont, .inlineBox plainStyle true true [.textRun plainStyle "cd ef".toList demoFont]]

theorem plain_bare (v : ℚ) : startSpace v plainStyle = 0 ∧ endSpace v plainStyle = 0 := by
  have h1 : plainStyle.padding.inlineStart = .length 0 ∧ plainStyle.borderWidth.inlineStart = .length 0 ∧
      plainStyle.margin.inlineStart = .length 0 := by decide +kernel
  have h2 : plainStyle.padding.inlineEnd = .length 0 ∧ plainStyle.borderWidth.inlineEnd = .length 0 ∧
      plainStyle.margin.inlineEnd = .length 0 := by decide +kernel
  constructor
  · unfold startSpace
    rw [h1.1, h1.2.1, h1.2.2]
    simp [LengthOrPercentage.percentageRelativeTo, LengthOrPercentageOrAuto.percentageRelativeTo, LengthOrAuto.autoIs]
  · unfold endSpace
    rw [h2.1, h2.2.1, h2.2.2]
    simp [LengthOrPercentage.percentageRelativeTo, LengthOrPercentageOrAuto.percentageRelativeTo, LengthOrAuto.autoIs]

theorem plain_level (own parent : Font) : shiftOf plainStyle own parent = 0 := by
  have h : plainStyle.val .verticalAlign = VerticalAlign.baseline := by decide +kernel
  unfold shiftOf
  rw [h]

theorem evenBoxes_even : inlineEven demoEnv 10 30 evenBoxes := by
  have h : (30 : ℚ) = 10 * (((2 : ℕ) : ℚ) + 1) := by norm_num
  rw [h]
  refine ⟨⟨by decide +kernel, demo_spaced, demo_even (by decide) (by decide) (by decide) (by decide)⟩,
    ⟨plain_bare, ⟨⟨by decide +kernel, demo_spaced, demo_even (by decide) (by decide) (by decide) (by decide)⟩, trivial⟩⟩,
    trivial⟩

theorem evenBoxes_level : inlineLevel (ascentOf plainStyle demoFont) (descentOf plainStyle demoFont) evenBoxes :=
  ⟨⟨rfl, rfl⟩, ⟨plain_level, ⟨rfl, rfl⟩, trivial⟩, trivial⟩

/-- three lines in a column of three characters, two in one of five, one in one of eight; the hypotheses
of `C92_lines_partial` hold -/
example : inlineEven demoEnv 10 30 evenBoxes ∧
    linesIn demoEnv evenBoxes 30 = some [["ab ".toList], ["cd".toList], ["ef".toList]] ∧
    linesIn demoEnv evenBoxes 50 = some [["ab ".toList, "cd".toList], ["ef".toList]] ∧
    linesIn demoEnv evenBoxes 80 = some [["ab ".toList, "cd ef".toList]] :=
  ⟨evenBoxes_even, by decide +kernel, by decide +kernel, by decide +kernel⟩

/-- the text in a block with a padding of 5 at the left, then a block of height 10 -/
def evenPage : List BlockLevelBox :=
  [.sameFormattingContextBlock (plainStyle.set .paddingLeft (.length 5)) (.inlineFormattingContext plainStyle evenBoxes),
    blockOf 0 0]

theorem steady_of {style : Style} (h1 : ∃ a, style.val .marginTop = .length a) (h2 : ∃ a, style.val .marginBottom = .length a)
    (h3 : ∃ a, style.val .paddingTop = .length a) (h4 : ∃ a, style.val .paddingBottom = .length a)
    (h5 : ∃ a, style.val .borderTopWidth = .length a) (h6 : ∃ a, style.val .borderBottomWidth = .length a)
    (h7 : ∃ a, style.val .marginLeft = .length a) (h8 : ∃ a, style.val .marginRight = .length a)
    (h9 : ∃ a, style.val .paddingLeft = .length a) (h10 : ∃ a, style.val .paddingRight = .length a)
    (h11 : ∃ a, style.val .borderLeftWidth = .length a) (h12 : ∃ a, style.val .borderRightWidth = .length a)
    (h13 : style.val .width = .auto) : Steady style := by
  obtain ⟨_, h1⟩ := h1
  obtain ⟨_, h2⟩ := h2
  obtain ⟨_, h3⟩ := h3
  obtain ⟨_, h4⟩ := h4
  obtain ⟨_, h5⟩ := h5
  obtain ⟨_, h6⟩ := h6
  obtain ⟨_, h7⟩ := h7
  obtain ⟨_, h8⟩ := h8
  obtain ⟨_, h9⟩ := h9
  obtain ⟨_, h10⟩ := h10
  obtain ⟨_, h11⟩ := h11
  obtain ⟨_, h12⟩ := h12
  constructor <;> intro v v'
  · rw [h1]; rfl
  · rw [h2]; rfl
  · rw [h3, h5]; rfl
  · rw [h4, h6]; rfl
  · intro hv
    unfold widthIn
    rw [h13, h7, h8, h9, h10, h11, h12]
    simp only [marginIn, spaceIn]
    linarith

theorem evenPage_fluid : blocksFluid demoEnv 35 evenPage := by
  refine ⟨⟨?_, ?_⟩, ⟨?_, trivial⟩, trivial⟩
  · apply steady_of
    all_goals first | rfl | exact ⟨_, by rfl⟩
  · have : widthIn 35 (plainStyle.set .paddingLeft (.length 5)) = 30 := by decide +kernel
    rw [this]
    exact ⟨by norm_num, ⟨trivial, ⟨trivial, trivial⟩, trivial⟩, 10, _, _, evenBoxes_even, evenBoxes_level⟩
  · apply steady_of
    all_goals first | rfl | exact ⟨_, by rfl⟩

/-- edges of the blocks of that page at some width -/
def evenEdges (w : Length) : Option (List (Length × Length)) :=
  match rootLayout demoEnv (.mk (.blockLevelBoxes evenPage) false) ⟨w, 500⟩ with
  | .ok fs => some (drawnOf 0 evenPage fs)
  | .error _ => none

example : blocksFluid demoEnv 35 evenPage ∧
    evenEdges 35 = some [(0, 288 / 5), (288 / 5, 338 / 5)] ∧ evenEdges 60 = some [(0, 192 / 5), (192 / 5, 242 / 5)] :=
  ⟨evenPage_fluid, by decide +kernel, by decide +kernel⟩

end Sinab
