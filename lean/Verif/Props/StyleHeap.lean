import Verif.Model.StyleHeap
import Verif.Lemmas.ConstructGood
import Mathlib.Data.List.Count
import Mathlib.Data.List.Perm.Basic

/-! Shared computed values (C77). -/

namespace Sinab.Shared

/-! ## Memory -/

/-- reference counts are the numbers of pointers in `P`, and what has no pointer is freed -/
structure Heap.Counted (h : Heap) (P : List Nat) : Prop where
  count : ∀ a c, h.cell a = some c → c.strong = P.count a ∧ 0 < c.strong
  live : ∀ a ∈ P, (h.cell a).isSome = true

/-- `b` has in `h'` the values that it had in `h` -/
def Same (h h' : Heap) (b : Nat) : Prop := h'.val b = h.val b

theorem Heap.Counted.perm {h : Heap} {P Q : List Nat} (hc : h.Counted P) (e : P.Perm Q) : h.Counted Q :=
  ⟨fun a c ha => by rw [← e.count_eq]; exact hc.count a c ha, fun a ha => hc.live a (e.mem_iff.2 ha)⟩

theorem cell_lt {h : Heap} {a : Nat} {c : Cell} (e : h.cell a = some c) : a < h.cells.length := by
  unfold Heap.cell at e
  by_contra hn
  rw [List.getElem?_eq_none (by omega)] at e
  cases e

theorem cell_set {h : Heap} {a b : Nat} {x : Option Cell} (ha : a < h.cells.length) :
    Heap.cell ⟨h.cells.set a x⟩ b = if a = b then x else h.cell b := by
  unfold Heap.cell
  rw [List.getElem?_set]
  split
  · subst_vars
    simp
  · rfl

theorem cell_append {h : Heap} {b : Nat} {x : Option Cell} :
    Heap.cell ⟨h.cells ++ [x]⟩ b = if b = h.cells.length then x else h.cell b := by
  unfold Heap.cell
  by_cases hb : b < h.cells.length
  · rw [List.getElem?_append_left hb, if_neg (by omega)]
  · rw [List.getElem?_append_right (by omega)]
    split
    · subst_vars
      simp
    · rw [List.getElem?_eq_none (by simp; omega), List.getElem?_eq_none (by omega)]

theorem cell_length (h : Heap) : h.cell h.cells.length = none := by
  unfold Heap.cell
  rw [List.getElem?_eq_none le_rfl]
  rfl

theorem get_ok {h : Heap} {a : Nat} {c : Cell} (e : h.cell a = some c) : h.get a = .ok c := by
  simp [Heap.get, e]

theorem Heap.Counted.get {h : Heap} {P : List Nat} (hc : h.Counted P) {a : Nat} (ha : a ∈ P) :
    ∃ c, h.cell a = some c ∧ c.strong = P.count a := by
  obtain ⟨c, e⟩ := Option.isSome_iff_exists.1 (hc.live a ha)
  exact ⟨c, e, (hc.count a c e).1⟩

theorem alloc_spec {h : Heap} {P : List Nat} (hc : h.Counted P) (v : Values) :
    (h.alloc v).1.Counted ((h.alloc v).2 :: P) ∧ (h.alloc v).2 ∉ P ∧
      (h.alloc v).1.val (h.alloc v).2 = v ∧ ∀ b ∈ P, Same h (h.alloc v).1 b := by
  have hn : h.cells.length ∉ P := by
    intro hm
    have := hc.live _ hm
    rw [cell_length] at this
    cases this
  refine ⟨⟨fun a c ha => ?_, fun a ha => ?_⟩, hn, ?_, fun b hb => ?_⟩
  · simp only [Heap.alloc] at ha ⊢
    rw [cell_append] at ha
    split at ha
    · rename_i e
      subst e
      cases ha
      rw [List.count_cons_self, List.count_eq_zero_of_not_mem hn]
      exact ⟨rfl, Nat.one_pos⟩
    · rename_i e
      rw [List.count_cons_of_ne (Ne.symm e)]
      exact hc.count a c ha
  · simp only [Heap.alloc] at ha ⊢
    rw [cell_append]
    split
    · rfl
    · rename_i e
      rcases List.mem_cons.1 ha with rfl | ha
      · exact absurd rfl e
      · exact hc.live a ha
  · simp [Heap.alloc, Heap.val, cell_append]
  · have : b ≠ h.cells.length := fun e => hn (e ▸ hb)
    simp [Same, Heap.alloc, Heap.val, cell_append, this]

theorem clone_spec {h : Heap} {P : List Nat} (hc : h.Counted P) {a : Nat} (ha : a ∈ P) :
    ∃ h', h.clone a = .ok h' ∧ h'.Counted (a :: P) ∧ ∀ b, Same h h' b := by
  obtain ⟨c, e, hs⟩ := hc.get ha
  have hlt := cell_lt e
  refine ⟨⟨h.cells.set a (some ⟨c.strong + 1, c.val⟩)⟩, ?_, ⟨fun b d hb => ?_, fun b hb => ?_⟩, fun b => ?_⟩
  · simp only [Heap.clone, get_ok e, bind, Except.bind, pure, Except.pure]
  · rw [cell_set hlt] at hb
    split at hb
    · rename_i e'
      subst e'
      cases hb
      rw [List.count_cons_self, ← hs]
      exact ⟨rfl, Nat.succ_pos _⟩
    · rename_i e'
      rw [List.count_cons_of_ne e']
      exact hc.count b d hb
  · rw [cell_set hlt]
    split
    · rfl
    · rename_i e'
      rcases List.mem_cons.1 hb with rfl | hb
      · exact absurd rfl e'
      · exact hc.live b hb
  · unfold Same Heap.val
    rw [cell_set hlt]
    by_cases e' : a = b
    · subst e'
      rw [if_pos rfl, e]
    · rw [if_neg e']

theorem drop_spec {h : Heap} {P : List Nat} {a : Nat} (hc : h.Counted (a :: P)) :
    ∃ h', h.drop a = .ok h' ∧ h'.Counted P ∧ ∀ b ∈ P, Same h h' b := by
  obtain ⟨c, e, hs⟩ := hc.get (List.mem_cons_self ..)
  have hlt := cell_lt e
  rw [List.count_cons_self] at hs
  by_cases h1 : c.strong = 1
  · have hn : a ∉ P := by
      rw [← List.count_eq_zero]
      omega
    refine ⟨⟨h.cells.set a none⟩, ?_, ⟨fun b d hb => ?_, fun b hb => ?_⟩, fun b hb => ?_⟩
    · simp only [Heap.drop, get_ok e, bind, Except.bind, pure, Except.pure]
      rw [if_pos h1]
    · rw [cell_set hlt] at hb
      split at hb
      · cases hb
      · rename_i e'
        have := hc.count b d hb
        rwa [List.count_cons_of_ne e'] at this
    · have : a ≠ b := fun e => hn (e ▸ hb)
      rw [cell_set hlt, if_neg this]
      exact hc.live b (List.mem_cons_of_mem _ hb)
    · have : a ≠ b := fun e => hn (e ▸ hb)
      unfold Same Heap.val
      rw [cell_set hlt, if_neg this]
  · refine ⟨⟨h.cells.set a (some ⟨c.strong - 1, c.val⟩)⟩, ?_, ⟨fun b d hb => ?_, fun b hb => ?_⟩, fun b hb => ?_⟩
    · simp only [Heap.drop, get_ok e, bind, Except.bind, pure, Except.pure]
      rw [if_neg h1]
    · rw [cell_set hlt] at hb
      split at hb
      · rename_i e'
        subst e'
        cases hb
        simp only
        omega
      · rename_i e'
        have := hc.count b d hb
        rwa [List.count_cons_of_ne e'] at this
    · rw [cell_set hlt]
      split
      · rfl
      · exact hc.live b (List.mem_cons_of_mem _ hb)
    · unfold Same Heap.val
      rw [cell_set hlt]
      by_cases e' : a = b
      · subst e'
        rw [if_pos rfl, e]
      · rw [if_neg e']

theorem makeMut_spec {h : Heap} {P : List Nat} {a : Nat} (hc : h.Counted (a :: P)) :
    ∃ h' a', h.makeMut a = .ok (h', a') ∧ h'.Counted (a' :: P) ∧ a' ∉ P ∧ h'.val a' = h.val a ∧
      ∀ b ∈ P, Same h h' b := by
  obtain ⟨c, e, hs⟩ := hc.get (List.mem_cons_self ..)
  rw [List.count_cons_self] at hs
  have hv : h.val a = c.val := by simp [Heap.val, e]
  by_cases h1 : c.strong = 1
  · refine ⟨h, a, ?_, hc, ?_, rfl, fun b _ => rfl⟩
    · simp only [Heap.makeMut, get_ok e, bind, Except.bind, pure, Except.pure]
      rw [if_pos h1]
    · rw [← List.count_eq_zero]
      omega
  · obtain ⟨k1, k2, k3, k4⟩ := alloc_spec hc c.val
    obtain ⟨h', m1, m2, m3⟩ := drop_spec (k1.perm (List.Perm.swap _ _ _))
    refine ⟨h', (h.alloc c.val).2, ?_, m2, fun hm => k2 (List.mem_cons_of_mem _ hm), ?_, fun b hb => ?_⟩
    · simp only [Heap.makeMut, get_ok e, bind, Except.bind, pure, Except.pure]
      rw [if_neg h1, m1]
    · rw [m3 _ (List.mem_cons_self ..), k3, hv]
    · exact (m3 b (List.mem_cons_of_mem _ hb)).trans (k4 b (List.mem_cons_of_mem _ hb))

theorem store_spec {h : Heap} {P : List Nat} {a : Nat} (hc : h.Counted (a :: P)) (hn : a ∉ P)
    (p : Longhand) (v : p.Comp) :
    ∃ h', h.store a p v = .ok h' ∧ h'.Counted (a :: P) ∧ h'.val a = Function.update (h.val a) p v ∧
      ∀ b ∈ P, Same h h' b := by
  obtain ⟨c, e, hs⟩ := hc.get (List.mem_cons_self ..)
  have hlt := cell_lt e
  refine ⟨⟨h.cells.set a (some ⟨c.strong, Function.update c.val p v⟩)⟩, ?_, ⟨fun b d hb => ?_, fun b hb => ?_⟩,
    ?_, fun b hb => ?_⟩
  · simp only [Heap.store, get_ok e, bind, Except.bind, pure, Except.pure]
  · rw [cell_set hlt] at hb
    split at hb
    · rename_i e'
      subst e'
      cases hb
      exact hc.count a c e
    · exact hc.count b d hb
  · rw [cell_set hlt]
    split
    · rfl
    · exact hc.live b hb
  · simp [Heap.val, cell_set hlt, e]
  · have : a ≠ b := fun e => hn (e ▸ hb)
    unfold Same Heap.val
    rw [cell_set hlt, if_neg this]

/-! ## Styles -/

/-- the pointers of a style -/
def SharedStyle.ptrs (s : SharedStyle) : List Nat := Group.all.map s.ptr

theorem Group.mem_all (g : Group) : g ∈ Group.all := by cases g <;> decide

theorem SharedStyle.ptr_mem (s : SharedStyle) (g : Group) : s.ptr g ∈ s.ptrs :=
  List.mem_map_of_mem g.mem_all

/-- the pointers of a style but one -/
def SharedStyle.others (s : SharedStyle) (g : Group) : List Nat := (Group.all.erase g).map s.ptr

theorem ptrs_perm (s : SharedStyle) (g : Group) : s.ptrs.Perm (s.ptr g :: s.others g) :=
  (List.perm_cons_erase g.mem_all).map s.ptr

theorem nodup_all : Group.all.Nodup := by decide

theorem others_update (s : SharedStyle) (g : Group) (a : Nat) :
    (SharedStyle.mk (Function.update s.ptr g a) s.specifiedDisplay).others g = s.others g := by
  unfold SharedStyle.others
  refine List.map_congr_left fun x hx => ?_
  have : x ≠ g := fun e => by
    subst e
    exact (List.Nodup.not_mem_erase nodup_all) hx
  simp [this]

theorem mem_others (s : SharedStyle) {g g' : Group} (h : g' ≠ g) : s.ptr g' ∈ s.others g :=
  List.mem_map_of_mem ((List.mem_erase_of_ne h).2 g'.mem_all)

/-- all values of a style stay the same -/
theorem view_same {h h' : Heap} {s : SharedStyle} (hs : ∀ b ∈ s.ptrs, Same h h' b) : h'.view s = h.view s := by
  unfold Heap.view
  congr 1
  funext p
  rw [hs _ (s.ptr_mem _)]

theorem read_ok {h : Heap} {P : List Nat} (hc : h.Counted P) {s : SharedStyle} (hs : s.ptrs ⊆ P) :
    h.read s = .ok (h.view s) := by
  unfold Heap.read
  rw [if_pos]
  rw [List.all_eq_true]
  exact fun g _ => hc.live _ (hs (s.ptr_mem g))

/-- Memory `h` and style `s` become `w`; the other pointers are `P`: the counts are right, the
values of `s` become `f` of what they were, and all other values stay. -/
structure Does (P : List Nat) (h : Heap) (v : Style) (r : Except Panic Work) : Prop where
  ok : ∃ w, r = .ok w ∧ w.1.Counted (w.2.ptrs ++ P) ∧ w.1.view w.2 = v ∧ ∀ b ∈ P, Same h w.1 b

theorem set_spec {P : List Nat} {w : Work} (hc : w.1.Counted (w.2.ptrs ++ P)) (p : Longhand) (v : p.Comp) :
    Does P w.1 ((w.1.view w.2).set p v) (w.set p v) := by
  obtain ⟨h, s⟩ := w
  have hc' : h.Counted (s.ptr (groupOf p) :: (s.others (groupOf p) ++ P)) :=
    hc.perm ((ptrs_perm s (groupOf p)).append_right P)
  obtain ⟨h1, a, m1, m2, m3, m4, m5⟩ := makeMut_spec hc'
  obtain ⟨h2, k1, k2, k3, k4⟩ := store_spec m2 m3 p v
  refine ⟨(h2, { s with ptr := Function.update s.ptr (groupOf p) a }), ?_, ?_, ?_, fun b hb => ?_⟩
  · simp only [Work.set, bind, Except.bind, m1, k1, pure, Except.pure]
  · refine k2.perm (List.Perm.symm ?_)
    refine ((ptrs_perm _ (groupOf p)).append_right P).trans ?_
    rw [others_update]
    simp
  · unfold Heap.view Style.set
    simp only [Style.mk.injEq, and_true]
    funext q
    by_cases hg : groupOf q = groupOf p
    · rw [hg, Function.update_self, k3, m4]
      by_cases hq : q = p
      · subst hq
        simp
      · simp [hq, hg]
    · have hq : q ≠ p := fun e => hg (by rw [e])
      rw [Function.update_of_ne hg, Function.update_of_ne hq]
      have hm : s.ptr (groupOf q) ∈ s.others (groupOf p) ++ P := List.mem_append_left _ (mem_others s hg)
      have := (k4 _ hm).trans (m5 _ hm)
      rw [this]
  · have hm : b ∈ s.others (groupOf p) ++ P := List.mem_append_right _ hb
    exact (k4 _ hm).trans (m5 _ hm)

theorem does_id {P : List Nat} {w : Work} (hc : w.1.Counted (w.2.ptrs ++ P)) :
    Does P w.1 (w.1.view w.2) (.ok w) :=
  ⟨w, rfl, hc, rfl, fun _ _ => rfl⟩

/-- one after the other -/
theorem Does.bind {P : List Nat} {h : Heap} {v : Style} {r : Except Panic Work} (d : Does P h v r)
    {k : Work → Except Panic Work} {v' : Style}
    (hk : ∀ w : Work, w.1.Counted (w.2.ptrs ++ P) → w.1.view w.2 = v → (∀ b ∈ P, Same h w.1 b) →
      Does P w.1 v' (k w)) : Does P h v' (r >>= k) := by
  obtain ⟨w, rfl, h1, h2, h3⟩ := d.ok
  obtain ⟨w', e, k1, k2, k3⟩ := (hk w h1 h2 h3).ok
  exact ⟨w', e, k1, k2, fun b hb => (k3 b hb).trans (h3 b hb)⟩

section

variable {P : List Nat} {inherited : SharedStyle} (hi : inherited.ptrs ⊆ P)

include hi

theorem cascadeCssWide_spec {w : Work} (hc : w.1.Counted (w.2.ptrs ++ P)) (p : Longhand)
    (k : CssWideKeyword) :
    Does P w.1 (p.cascadeCssWide k (w.1.view w.2) (w.1.view inherited)) (cascadeCssWide p k inherited w) := by
  unfold cascadeCssWide Longhand.cascadeCssWide
  rw [read_ok hc (List.Subset.trans hi (List.subset_append_right _ _))]
  exact set_spec hc p _

theorem cascadeDecl_spec {w : Work} (hc : w.1.Counted (w.2.ptrs ++ P)) (ph : Phase) (d : Decl) :
    Does P w.1 (ph.cascade (w.1.view inherited) (w.1.view w.2) d) (cascadeDecl ph inherited w d) := by
  have r1 := read_ok hc (List.Subset.trans hi (List.subset_append_right _ _))
  have r2 := read_ok hc (List.subset_append_left w.2.ptrs P)
  cases ph with
  | early =>
    cases d with
    | value p v =>
      simp only [cascadeDecl, ifEarlyCascadeInto, r1, Phase.cascade, Decl.ifEarlyCascadeInto, bind, Except.bind]
      cases p.earlyFromSpecified (w.1.view inherited) v with
      | some c => exact set_spec hc p c
      | none => exact does_id hc
    | cssWide p k =>
      simp only [cascadeDecl, ifEarlyCascadeInto, Phase.cascade, Decl.ifEarlyCascadeInto]
      split
      · exact cascadeCssWide_spec hi hc p k
      · exact does_id hc
  | late =>
    cases d with
    | value p v =>
      simp only [cascadeDecl, ifLateCascadeInto, r1, r2, Phase.cascade, Decl.ifLateCascadeInto, bind, Except.bind]
      cases p.fromSpecified (w.1.view inherited) (w.1.view w.2) v with
      | some c => exact set_spec hc p c
      | none => exact does_id hc
    | cssWide p k =>
      simp only [cascadeDecl, ifLateCascadeInto, Phase.cascade, Decl.ifLateCascadeInto]
      split
      · exact cascadeCssWide_spec hi hc p k
      · exact does_id hc

theorem foldlM_spec {α : Type} {step : Work → α → Except Panic Work} {f : Style → Style → α → Style}
    (hs : ∀ (w : Work) (x : α), w.1.Counted (w.2.ptrs ++ P) →
      Does P w.1 (f (w.1.view inherited) (w.1.view w.2) x) (step w x)) :
    ∀ (l : List α) (w : Work), w.1.Counted (w.2.ptrs ++ P) →
      Does P w.1 (l.foldl (f (w.1.view inherited)) (w.1.view w.2)) (l.foldlM step w)
  | [], w, hc => does_id hc
  | x :: l, w, hc => by
    rw [List.foldlM_cons, List.foldl_cons]
    refine (hs w x hc).bind fun w' h1 h2 h3 => ?_
    have := foldlM_spec hs l w' h1
    rw [h2, view_same fun b hb => h3 b (hi hb)] at this
    exact this

theorem cascadeBlock_spec (b : Block) (important : Bool) (any : PerPhase) (ph : Phase) {w : Work}
    (hc : w.1.Counted (w.2.ptrs ++ P)) :
    Does P w.1 (b.cascade important any ph (w.1.view inherited) (w.1.view w.2))
      (cascadeBlock b important any ph inherited w) := by
  unfold cascadeBlock Block.cascade
  split
  · refine foldlM_spec hi (step := fun w (di : Decl × Bool) => if di.2 = important then cascadeDecl ph inherited w di.1 else pure w)
      (f := fun i t (di : Decl × Bool) => if di.2 = important then ph.cascade i t di.1 else t) (fun w x hc => ?_) _ w hc
    split
    · exact cascadeDecl_spec hi hc ph _
    · exact does_id hc
  · exact does_id hc

theorem cascadeMatching_spec (m : Matching) (ph : Phase) {w : Work} (hc : w.1.Counted (w.2.ptrs ++ P)) :
    Does P w.1 (m.cascade ph (w.1.view inherited) (w.1.view w.2)) (cascadeMatching m ph inherited w) := by
  have hb : ∀ (important : Bool) (any : Block → PerPhase) (l : List Block) (w : Work),
      w.1.Counted (w.2.ptrs ++ P) →
      Does P w.1 (l.foldl (fun t b => b.cascade important (any b) ph (w.1.view inherited) t) (w.1.view w.2))
        (l.foldlM (fun w b => cascadeBlock b important (any b) ph inherited w) w) := by
    intro important any l w hc
    exact foldlM_spec hi (step := fun w b => cascadeBlock b important (any b) ph inherited w)
      (f := fun i t b => b.cascade important (any b) ph i t)
      (fun w x hc => cascadeBlock_spec hi x important (any x) ph hc) l w hc
  unfold cascadeMatching Matching.cascade
  refine (hb false Block.anyNormal m.ua w hc).bind fun w1 h1 e1 s1 => ?_
  have i1 := view_same (h := w.1) (h' := w1.1) fun b hb => s1 b (hi hb)
  refine (hb false Block.anyNormal m.author w1 h1).bind fun w2 h2 e2 s2 => ?_
  have i2 := view_same (h := w1.1) (h' := w2.1) fun b hb => s2 b (hi hb)
  refine (hb true Block.anyImportant m.author w2 h2).bind fun w3 h3 e3 s3 => ?_
  have i3 := view_same (h := w2.1) (h' := w3.1) fun b hb => s3 b (hi hb)
  have := hb true Block.anyImportant m.ua w3 h3
  rw [e3, i3, e2, i2, e1, i1] at this
  exact this

end

/-! ## After the cascade -/

theorem displayFixup_spec {P : List Nat} {w : Work} (hc : w.1.Counted (w.2.ptrs ++ P)) :
    Does P w.1 (w.1.view w.2).displayFixup (displayFixup w) := by
  unfold displayFixup Style.displayFixup
  rw [read_ok hc (List.subset_append_left w.2.ptrs P)]
  simp only [bind, Except.bind]
  split
  · split
    · exact set_spec (w := (w.1, { w.2 with specifiedDisplay := (w.1.view w.2).val .display })) hc _ _
    · exact ⟨_, rfl, hc, rfl, fun _ _ => rfl⟩
  · exact ⟨_, rfl, hc, rfl, fun _ _ => rfl⟩

theorem store_view {P : List Nat} {h : Heap} {s : SharedStyle} {g : Group}
    (hc : h.Counted (s.ptr g :: (s.others g ++ P))) (hn : s.ptr g ∉ s.others g ++ P) (p : Longhand)
    (hp : groupOf p = g) (v : p.Comp) :
    ∃ h', h.store (s.ptr g) p v = .ok h' ∧ h'.Counted (s.ptr g :: (s.others g ++ P)) ∧
      h'.view s = (h.view s).set p v ∧ ∀ b ∈ P, Same h h' b := by
  obtain ⟨h', k1, k2, k3, k4⟩ := store_spec hc hn p v
  refine ⟨h', k1, k2, ?_, fun b hb => k4 b (List.mem_append_right _ hb)⟩
  unfold Heap.view Style.set
  simp only [Style.mk.injEq, and_true]
  funext q
  by_cases hg : groupOf q = g
  · rw [hg, k3]
    by_cases hq : q = p
    · subst hq
      simp
    · simp [hq, hg]
  · have hq : q ≠ p := fun e => hg (by rw [e, hp])
    rw [Function.update_of_ne hq, k4 _ (List.mem_append_left _ (mem_others s hg))]

/-- the values of a style after the fixups of its borders -/
def _root_.Sinab.Style.borderFixups (s : Style) : Style :=
  let s := s.set .borderTopWidth (lineWidthFixup (s.val .borderTopWidth) (s.val .borderTopStyle))
  let s := s.set .borderLeftWidth (lineWidthFixup (s.val .borderLeftWidth) (s.val .borderLeftStyle))
  let s := s.set .borderBottomWidth
    (lineWidthFixup (s.val .borderBottomWidth) (s.val .borderBottomStyle))
  s.set .borderRightWidth (lineWidthFixup (s.val .borderRightWidth) (s.val .borderRightStyle))

theorem borderFixups_spec {P : List Nat} {h : Heap} {s : SharedStyle} (hc : h.Counted (s.ptrs ++ P)) :
    ∃ h' a, postCascadeFixups (h, s) = displayFixup (h', ⟨Function.update s.ptr .border a, s.specifiedDisplay⟩) ∧
      h'.Counted ((SharedStyle.mk (Function.update s.ptr .border a) s.specifiedDisplay).ptrs ++ P) ∧
      h'.view ⟨Function.update s.ptr .border a, s.specifiedDisplay⟩ = (h.view s).borderFixups ∧ a ∉ P ∧
      ∀ b ∈ P, Same h h' b := by
  have hc' : h.Counted (s.ptr .border :: (s.others .border ++ P)) :=
    hc.perm ((ptrs_perm s .border).append_right P)
  obtain ⟨h0, a, m1, m2, m3, m4, m5⟩ := makeMut_spec hc'
  generalize hs' : SharedStyle.mk (Function.update s.ptr .border a) s.specifiedDisplay = s'
  have ha : s'.ptr .border = a := by rw [← hs']; simp
  have ho : s'.others .border = s.others .border := by rw [← hs', others_update]
  have hv0 : h0.view s' = h.view s := by
    rw [← hs']
    unfold Heap.view
    simp only [Style.mk.injEq, and_true]
    funext q
    by_cases hg : groupOf q = .border
    · rw [hg, Function.update_self, m4]
    · rw [Function.update_of_ne hg, m5 _ (List.mem_append_left _ (mem_others s hg))]
  rw [← ho, ← ha] at m2 m3
  have hget : ∀ {h : Heap}, h.Counted (s'.ptr .border :: (s'.others .border ++ P)) →
      ∃ c, h.get a = .ok c ∧ c.val = h.val (s'.ptr .border) := by
    intro h hc
    obtain ⟨c, e, -⟩ := hc.get (List.mem_cons_self ..)
    rw [ha] at e
    exact ⟨c, get_ok e, by simp [ha, Heap.val, e]⟩
  obtain ⟨c0, g0, v0⟩ := hget m2
  obtain ⟨h1, k1, c1, u1, s1⟩ := store_view m2 m3 .borderTopWidth rfl
    (lineWidthFixup (c0.val .borderTopWidth) (c0.val .borderTopStyle))
  obtain ⟨d1, g1, v1⟩ := hget c1
  obtain ⟨h2, k2, c2, u2, s2⟩ := store_view c1 m3 .borderLeftWidth rfl
    (lineWidthFixup (d1.val .borderLeftWidth) (d1.val .borderLeftStyle))
  obtain ⟨d2, g2, v2⟩ := hget c2
  obtain ⟨h3, k3, c3, u3, s3⟩ := store_view c2 m3 .borderBottomWidth rfl
    (lineWidthFixup (d2.val .borderBottomWidth) (d2.val .borderBottomStyle))
  obtain ⟨d3, g3, v3⟩ := hget c3
  obtain ⟨h4, k4, c4, u4, s4⟩ := store_view c3 m3 .borderRightWidth rfl
    (lineWidthFixup (d3.val .borderRightWidth) (d3.val .borderRightStyle))
  rw [ha] at k1 k2 k3 k4
  have e : postCascadeFixups (h, s) = displayFixup (h4, s') := by
    simp only [postCascadeFixups, bind, Except.bind, m1, g0, k1, g1, k2, g2, k3, g3, k4, hs']
  refine ⟨h4, a, ?_⟩
  rw [hs']
  refine ⟨e, c4.perm ((ptrs_perm s' .border).append_right P).symm, ?_, ?_, fun b hb => (s4 b hb).trans
    ((s3 b hb).trans ((s2 b hb).trans ((s1 b hb).trans (m5 b (List.mem_append_right _ hb)))))⟩
  · rw [u4, v3]
    change (h3.view s').set .borderRightWidth (lineWidthFixup ((h3.view s').val .borderRightWidth)
      ((h3.view s').val .borderRightStyle)) = _
    rw [u3, v2]
    change (((h2.view s').set .borderBottomWidth (lineWidthFixup ((h2.view s').val .borderBottomWidth)
      ((h2.view s').val .borderBottomStyle)))).set .borderRightWidth _ = _
    rw [u2, v1]
    change ((((h1.view s').set .borderLeftWidth (lineWidthFixup ((h1.view s').val .borderLeftWidth)
      ((h1.view s').val .borderLeftStyle)))).set .borderBottomWidth _).set .borderRightWidth _ = _
    rw [u1, v0]
    change (((((h0.view s').set .borderTopWidth (lineWidthFixup ((h0.view s').val .borderTopWidth)
      ((h0.view s').val .borderTopStyle)))).set .borderLeftWidth _).set .borderBottomWidth _).set
        .borderRightWidth _ = _
    rw [hv0]
    rfl
  · rw [ha] at m3
    exact fun hm => m3 (List.mem_append_right _ hm)

theorem postCascadeFixups_spec {P : List Nat} {w : Work} (hc : w.1.Counted (w.2.ptrs ++ P)) :
    Does P w.1 (w.1.view w.2).postCascadeFixups (postCascadeFixups w) := by
  obtain ⟨h', a, e, k1, k2, -, k4⟩ := borderFixups_spec hc
  obtain ⟨w', e1, e2, e3, e4⟩ := (displayFixup_spec
    (w := (h', ⟨Function.update w.2.ptr .border a, w.2.specifiedDisplay⟩)) k1).ok
  refine ⟨w', e.trans e1, e2, ?_, fun b hb => (e4 b hb).trans (k4 b hb)⟩
  rw [e3]
  simp only
  rw [k2]
  rfl

/-! ## What is shared -/

theorem set_ptr {w w' : Work} {p : Longhand} {v : p.Comp} (h : w.set p v = .ok w') {g : Group}
    (hg : g ≠ groupOf p) : w'.2.ptr g = w.2.ptr g := by
  obtain ⟨⟨h1, a⟩, e1, h⟩ := bind_eq_ok.1 h
  obtain ⟨h2, e2, h⟩ := bind_eq_ok.1 h
  cases h
  simp [hg]

theorem cascadeCssWide_ptr {w w' : Work} {p : Longhand} {k : CssWideKeyword} {i : SharedStyle}
    (h : cascadeCssWide p k i w = .ok w') {g : Group} (hg : g ≠ groupOf p) : w'.2.ptr g = w.2.ptr g := by
  unfold cascadeCssWide at h
  obtain ⟨_, -, h⟩ := bind_eq_ok.1 h
  exact set_ptr h hg

theorem cascadeDecl_ptr {w w' : Work} {ph : Phase} {d : Decl} {i : SharedStyle}
    (h : cascadeDecl ph i w d = .ok w') {g : Group} (hg : g ≠ groupOf d.longhand) :
    w'.2.ptr g = w.2.ptr g := by
  cases ph with
  | early =>
    cases d with
    | value p v =>
      obtain ⟨_, -, h⟩ := bind_eq_ok.1 h
      split at h
      · exact set_ptr h hg
      · cases h
        rfl
    | cssWide p k =>
      simp only [cascadeDecl, ifEarlyCascadeInto] at h
      split at h
      · exact cascadeCssWide_ptr h hg
      · cases h
        rfl
  | late =>
    cases d with
    | value p v =>
      obtain ⟨_, -, h⟩ := bind_eq_ok.1 h
      obtain ⟨_, -, h⟩ := bind_eq_ok.1 h
      split at h
      · exact set_ptr h hg
      · cases h
        rfl
    | cssWide p k =>
      simp only [cascadeDecl, ifLateCascadeInto] at h
      split at h
      · exact cascadeCssWide_ptr h hg
      · cases h
        rfl

theorem foldlM_ptr {α : Type} {step : Work → α → Except Panic Work} {g : Group} :
    ∀ (l : List α), (∀ x ∈ l, ∀ w w', step w x = .ok w' → w'.2.ptr g = w.2.ptr g) → ∀ {w w' : Work},
      l.foldlM step w = .ok w' → w'.2.ptr g = w.2.ptr g
  | [], _, w, w', h => by
    cases h
    rfl
  | x :: l, hs, w, w', h => by
    rw [List.foldlM_cons] at h
    obtain ⟨w1, e1, h⟩ := bind_eq_ok.1 h
    rw [foldlM_ptr l (fun y hy => hs y (List.mem_cons_of_mem _ hy)) h, hs x (List.mem_cons_self ..) w w1 e1]

/-- nothing in the struct is declared -/
def Undeclared (g : Group) (m : Matching) : Prop :=
  ∀ b ∈ m.ua ++ m.author, ∀ d ∈ b.declarations, groupOf d.longhand ≠ g

theorem cascadeMatching_ptr {w w' : Work} {m : Matching} {ph : Phase} {i : SharedStyle}
    (h : cascadeMatching m ph i w = .ok w') {g : Group} (hg : Undeclared g m) : w'.2.ptr g = w.2.ptr g := by
  have hb : ∀ (important : Bool) (any : Block → PerPhase) (l : List Block), l ⊆ m.ua ++ m.author →
      ∀ w w', l.foldlM (fun w b => cascadeBlock b important (any b) ph i w) w = .ok w' → w'.2.ptr g = w.2.ptr g := by
    intro important any l hl w w' h
    refine foldlM_ptr l (fun b hb w w' h => ?_) h
    unfold cascadeBlock at h
    split at h
    · refine foldlM_ptr _ (fun di hd w w' h => ?_) h
      split at h
      · exact cascadeDecl_ptr h (hg b (hl hb) di.1 (List.of_mem_zip hd).1).symm
      · cases h
        rfl
    · cases h
      rfl
  have l1 := List.subset_append_left m.ua m.author
  have l2 := List.subset_append_right m.ua m.author
  unfold cascadeMatching at h
  obtain ⟨w1, e1, h⟩ := bind_eq_ok.1 h
  obtain ⟨w2, e2, h⟩ := bind_eq_ok.1 h
  obtain ⟨w3, e3, h⟩ := bind_eq_ok.1 h
  rw [hb _ _ _ l1 _ _ h, hb _ _ _ l2 _ _ e3, hb _ _ _ l2 _ _ e2, hb _ _ _ l1 _ _ e1]

theorem postCascadeFixups_ptr {P : List Nat} {w w' : Work} (hc : w.1.Counted (w.2.ptrs ++ P))
    (h : postCascadeFixups w = .ok w') :
    w'.2.ptr .border ∉ P ∧ ∀ g, g ≠ .border →
      (g = .box → ((w.1.view w.2).val .position).isAbsolutelyPositioned = false ∧
        ((w.1.view w.2).val .float).isFloating = false) → w'.2.ptr g = w.2.ptr g := by
  obtain ⟨h', a, e, k1, k2, k3, -⟩ := borderFixups_spec hc
  rw [← Prod.mk.eta (p := w), e] at h
  unfold displayFixup at h
  simp only at h
  rw [read_ok k1 (List.subset_append_left _ P), k2] at h
  simp only [bind, Except.bind] at h
  have hp : (w.1.view w.2).borderFixups.val .position = (w.1.view w.2).val .position := by
    simp [Style.borderFixups, Style.set]
  have hf : (w.1.view w.2).borderFixups.val .float = (w.1.view w.2).val .float := by
    simp [Style.borderFixups, Style.set]
  rw [hp, hf] at h
  split at h
  · rename_i hpos
    have hbox : ∀ g : Group, (g = .box → ((w.1.view w.2).val .position).isAbsolutelyPositioned = false ∧
        ((w.1.view w.2).val .float).isFloating = false) → g ≠ .box := by
      rintro g hg rfl
      rw [(hg rfl).1, (hg rfl).2] at hpos
      cases hpos
    split at h
    · refine ⟨?_, fun g hg hg' => ?_⟩
      · rw [set_ptr h (g := .border) (by decide)]
        simpa using k3
      · rw [set_ptr h (hbox g hg')]
        simp [hg]
    · cases h
      refine ⟨by simpa using k3, fun g hg hg' => ?_⟩
      simp [hg]
  · cases h
    refine ⟨by simpa using k3, fun g hg hg' => ?_⟩
    simp [hg]

/-! ## New styles -/

theorem clones_spec (ptr : Group → Nat) : ∀ (gs : List Group) {h : Heap} {P : List Nat}, h.Counted P →
    (∀ g ∈ gs, ptr g ∈ P) →
    ∃ h', gs.foldlM (fun h g => h.clone (ptr g)) h = .ok h' ∧ h'.Counted (gs.map ptr ++ P) ∧ ∀ b, Same h h' b
  | [], h, P, hc, _ => ⟨h, rfl, hc, fun _ => rfl⟩
  | g :: gs, h, P, hc, hp => by
    obtain ⟨h1, k1, k2, k3⟩ := clone_spec hc (hp g (List.mem_cons_self ..))
    obtain ⟨h2, m1, m2, m3⟩ := clones_spec ptr gs k2 fun g' hg =>
      List.mem_cons_of_mem _ (hp g' (List.mem_cons_of_mem _ hg))
    refine ⟨h2, ?_, m2.perm ?_, fun b => (m3 b).trans (k3 b)⟩
    · rw [List.foldlM_cons, k1]
      exact m1
    · rw [List.map_cons, List.cons_append]
      exact List.perm_middle

theorem drops_spec (ptr : Group → Nat) : ∀ (gs : List Group) {h : Heap} {P : List Nat},
    h.Counted (gs.map ptr ++ P) →
    ∃ h', gs.foldlM (fun h g => h.drop (ptr g)) h = .ok h' ∧ h'.Counted P ∧ ∀ b ∈ P, Same h h' b
  | [], h, P, hc => ⟨h, rfl, hc, fun _ _ => rfl⟩
  | g :: gs, h, P, hc => by
    obtain ⟨h1, k1, k2, k3⟩ := drop_spec hc
    obtain ⟨h2, m1, m2, m3⟩ := drops_spec ptr gs k2
    refine ⟨h2, ?_, m2, fun b hb => (m3 b hb).trans (k3 b (List.mem_append_right _ hb))⟩
    rw [List.foldlM_cons, k1]
    exact m1

theorem allocInitial_spec : ∀ (gs : List Group) {h : Heap} {P : List Nat} (ptr : Group → Nat), h.Counted P →
    gs.Nodup →
    (allocInitial gs h ptr).1.Counted (gs.map (allocInitial gs h ptr).2 ++ P) ∧
    (∀ g ∈ gs, (allocInitial gs h ptr).1.val ((allocInitial gs h ptr).2 g) = Longhand.initial) ∧
    (∀ g ∉ gs, (allocInitial gs h ptr).2 g = ptr g) ∧ ∀ b ∈ P, Same h (allocInitial gs h ptr).1 b
  | [], h, P, ptr, hc, _ => ⟨hc, fun g hg => absurd hg (List.not_mem_nil (a := g)), fun _ _ => rfl, fun _ _ => rfl⟩
  | g :: gs, h, P, ptr, hc, hn => by
    obtain ⟨a1, a2, a3, a4⟩ := alloc_spec hc Longhand.initial
    obtain ⟨k1, k2, k3, k4⟩ := allocInitial_spec gs (Function.update ptr g (h.alloc Longhand.initial).2) a1
      (List.nodup_cons.1 hn).2
    have hg := k3 g (List.nodup_cons.1 hn).1
    rw [Function.update_self] at hg
    unfold allocInitial
    refine ⟨?_, fun g' hg' => ?_, fun g' hg' => ?_, fun b hb => ?_⟩
    · refine k1.perm ?_
      rw [List.map_cons, hg, List.cons_append]
      exact List.perm_middle
    · rcases List.mem_cons.1 hg' with rfl | hg'
      · simp only [hg]
        rw [k4 _ (List.mem_cons_self ..), a3]
      · exact k2 g' hg'
    · simp only
      have hne : g' ≠ g := by
        rintro rfl
        exact hg' (List.mem_cons_self ..)
      rw [k3 g' fun h => hg' (List.mem_cons_of_mem _ h), Function.update_of_ne hne]
    · exact (k4 b (List.mem_cons_of_mem _ hb)).trans (a4 b hb)

/-- the pointers held by the program -/
def Store.held (s : Store) : List Nat := s.styles.flatMap fun t => (t.map SharedStyle.ptrs).getD []

/-- the pointers held by `INITIAL_VALUES` -/
def Store.roots (s : Store) : List Nat := (s.initial.map SharedStyle.ptrs).getD []

/-- the counts are right, and the initial values are as they should be -/
structure Store.Good (s : Store) : Prop where
  counted : s.heap.Counted (s.roots ++ s.held)
  initial : ∀ i, s.initial = some i → s.heap.view i = Style.initial

theorem force_spec {s : Store} (hs : s.Good) :
    s.force.1.Good ∧ s.force.1.initial = some s.force.2 ∧ s.force.1.styles = s.styles ∧
      ∀ b ∈ s.held, Same s.heap s.force.1.heap b := by
  unfold Store.force
  cases hi : s.initial with
  | some i => exact ⟨hs, hi, rfl, fun _ _ => rfl⟩
  | none =>
    have hc := hs.counted
    simp only [Store.roots, hi, Option.map_none, Option.getD_none, List.nil_append] at hc
    obtain ⟨k1, k2, k3, k4⟩ := allocInitial_spec Group.all (fun _ => 0) hc nodup_all
    simp only
    generalize allocInitial Group.all s.heap (fun _ => 0) = r at *
    refine ⟨⟨k1, fun i e => ?_⟩, trivial, trivial, k4⟩
    cases e
    unfold Heap.view Style.initial
    simp only [Style.mk.injEq, and_true]
    funext p
    rw [k2 _ (Group.mem_all _)]

theorem groupOf_inherited (p : Longhand) : (groupOf p).inherited = p.inherited := by
  cases p <;> rfl

theorem newStyle_spec {s : Store} (hs : s.Good) (parent : Option SharedStyle)
    (hp : ∀ p, parent = some p → p.ptrs ⊆ s.held) (matching : Option Matching) :
    ∃ s' t, newStyle s parent matching = .ok (s', t) ∧ s'.styles = s.styles ∧ s'.initial.isSome ∧
      s'.heap.Counted (t.ptrs ++ (s'.roots ++ s'.held)) ∧
      (∀ i, s'.initial = some i → s'.heap.view i = Style.initial) ∧
      s'.heap.view t = Style.new (parent.map s.heap.view) matching ∧ (∀ b ∈ s.held, Same s.heap s'.heap b) ∧
      ∃ i, s'.initial = some i ∧ t.ptr .border ∉ s'.roots ++ s'.held ∧ ∀ g, g ≠ .border →
        (∀ m, matching = some m → Undeclared g m) →
        t.ptr g = (if g.inherited then parent.getD i else i).ptr g := by
  obtain ⟨f1, f2, f3, f4⟩ := force_spec hs
  unfold newStyle
  generalize s.force = f at f1 f2 f3 f4 ⊢
  obtain ⟨s1, i⟩ := f
  simp only at f1 f2 f3 f4 ⊢
  have hr : s1.roots = i.ptrs := by simp [Store.roots, f2]
  have hheld : s1.held = s.held := by simp [Store.held, f3]
  have hsub : (parent.getD i).ptrs ⊆ s1.roots ++ s1.held := by
    cases parent with
    | none =>
      rw [hr]
      exact List.subset_append_left _ _
    | some p =>
      rw [hheld]
      exact List.Subset.trans (hp p rfl) (List.subset_append_right _ _)
  have hiv : s1.heap.view (parent.getD i) = (parent.map s.heap.view).getD Style.initial := by
    cases parent with
    | none => exact f1.initial i f2
    | some p => exact view_same fun b hb => f4 b (hp p rfl hb)
  have hini := f1.initial i f2
  generalize hinh : parent.getD i = inh at hsub hiv
  obtain ⟨h0, k1, k2, k3⟩ := clones_spec (fun g => (if Group.inherited g then inh else i).ptr g) Group.all f1.counted
    (by
      intro g _
      split
      · exact hsub (inh.ptr_mem g)
      · rw [hr]
        exact List.mem_append_left _ (i.ptr_mem g))
  generalize hw : (⟨fun g => (if Group.inherited g then inh else i).ptr g, Display.initial⟩ : SharedStyle) = t0 at *
  have hc0 : h0.Counted (t0.ptrs ++ (s1.roots ++ s1.held)) := by
    rw [← hw]
    exact k2
  have hv0 : h0.view t0 = Style.start (s1.heap.view inh) := by
    rw [← hw]
    unfold Heap.view Style.start
    simp only [Style.mk.injEq, and_true]
    funext p
    rw [k3, groupOf_inherited]
    split
    · rfl
    · exact congrFun (congrArg Style.val hini) p
  have hd : Does (s1.roots ++ s1.held) h0
      (match matching with
        | some m => m.cascade .late (s1.heap.view inh) (m.cascade .early (s1.heap.view inh) (h0.view t0))
        | none => h0.view t0)
      (match matching with
        | some m => do
          let w ← cascadeMatching m .early inh (h0, t0)
          cascadeMatching m .late inh w
        | none => pure (h0, t0)) := by
    have hi0 : h0.view inh = s1.heap.view inh := view_same fun b _ => k3 b
    cases matching with
    | none => exact does_id (w := (h0, t0)) hc0
    | some m =>
      simp only
      rw [← hi0]
      refine (cascadeMatching_spec hsub m .early (w := (h0, t0)) hc0).bind fun w e1 e2 e3 => ?_
      have := cascadeMatching_spec hsub m .late e1
      rw [e2, view_same fun b hb => e3 b (hsub hb)] at this
      exact this
  obtain ⟨w1, e1, e2, e3, e4⟩ := hd.ok
  obtain ⟨w2, l1, l2, l3, l4⟩ := (postCascadeFixups_spec e2).ok
  have hsame : ∀ b ∈ s1.roots ++ s1.held, Same s1.heap w2.1 b := fun b hb =>
    (l4 b hb).trans ((e4 b hb).trans (k3 b))
  refine ⟨{ s1 with heap := w2.1 }, w2.2, ?_, f3, ?_, l2, fun j hj => ?_, ?_, fun b hb => ?_, i, f2, ?_⟩
  · rw [k1]
    simp only [bind, Except.bind] at e1 ⊢
    cases matching with
    | none =>
      cases e1
      simp only [pure, Except.pure]
      rw [l1]
    | some m =>
      cases he : cascadeMatching m .early inh (h0, t0) with
      | error x =>
        simp only [he] at e1
        cases e1
      | ok v =>
        simp only [he] at e1
        simp only [he, e1, l1]
        rfl
  · simp [f2]
  · have : j = i := by
      simp only [f2, Option.some.injEq] at hj
      exact hj.symm
    subst this
    rw [← hini]
    exact view_same fun b hb => hsame b (List.mem_append_left _ (by rw [hr]; exact hb))
  · rw [l3, e3, hv0, hiv]
    rfl
  · exact (hsame b (List.mem_append_right _ (by rw [hheld]; exact hb))).trans (f4 b hb)
  · obtain ⟨q1, q2⟩ := postCascadeFixups_ptr e2 l1
    refine ⟨q1, fun g hg hm => ?_⟩
    have hw1 : w1.2.ptr g = t0.ptr g := by
      cases matching with
      | none =>
        cases e1
        rfl
      | some m =>
        obtain ⟨w, x1, x2⟩ := bind_eq_ok.1 e1
        rw [cascadeMatching_ptr x2 (hm m rfl), cascadeMatching_ptr x1 (hm m rfl)]
    have ht0 : t0.ptr g = (if g.inherited then parent.getD i else i).ptr g := by
      rw [← hw, hinh]
    rw [← ht0, ← hw1]
    refine q2 g hg ?_
    rintro rfl
    have hx : ∀ p, groupOf p = .box → (w1.1.view w1.2).val p = p.initial := by
      intro p hp
      have h1 : (w1.1.view w1.2).val p = w1.1.val (i.ptr .box) p := by
        unfold Heap.view
        simp only
        rw [hp, hw1, ht0]
        rfl
      have h2 : Same s1.heap w1.1 (i.ptr .box) :=
        (e4 _ (List.mem_append_left _ (by rw [hr]; exact i.ptr_mem _))).trans (k3 _)
      rw [h1, h2]
      have := congrFun (congrArg Style.val hini) p
      unfold Heap.view at this
      simp only [hp] at this
      exact this
    rw [hx .position rfl, hx .float rfl]
    exact ⟨rfl, rfl⟩

/-! ## Operations -/

theorem held_split {s : Store} {i : Nat} {t : SharedStyle} (h : s.style i = some t) :
    s.held.Perm (t.ptrs ++ ({ s with styles := s.styles.set i none } : Store).held) := by
  unfold Store.held
  unfold Store.style at h
  generalize s.styles = l at h
  simp only
  induction l generalizing i with
  | nil => cases h
  | cons x l ih =>
    cases i with
    | zero =>
      simp only [List.getElem?_cons_zero, Option.join_some] at h
      subst h
      simp
    | succ i =>
      rw [List.getElem?_cons_succ] at h
      rw [List.set_cons_succ, List.flatMap_cons, List.flatMap_cons]
      refine ((ih h).append_left _).trans ?_
      rw [← List.append_assoc, ← List.append_assoc]
      exact List.perm_append_comm.append_right _

theorem ptrs_held {s : Store} {i : Nat} {t : SharedStyle} (h : s.style i = some t) : t.ptrs ⊆ s.held :=
  fun _ hb => (held_split h).mem_iff.2 (List.mem_append_left _ hb)

/-- operations one after the other -/
def Store.run (s : Store) (ops : List Op) : Except Panic Store := ops.foldlM Store.step s

/-- what a program can see of its styles: their values -/
def Store.seen (s : Store) : List (Option Style) := s.styles.map (Option.map s.heap.view)

/-- Specification: every style has values of its own, nothing is shared.  `none` for a program
that names a style it does not hold. -/
def ownStep (vs : List (Option Style)) : Op → Option (List (Option Style))
  | .compute none m => some (vs ++ [some (Style.new none m)])
  | .compute (some i) m => (vs[i]?).join.map fun v => vs ++ [some (Style.new (some v) m)]
  | .release i => (vs[i]?).join.map fun _ => vs.set i none

/-- `ownStep` for a list of operations -/
def ownRun (vs : List (Option Style)) (ops : List Op) : Option (List (Option Style)) :=
  ops.foldlM ownStep vs

theorem seen_get (s : Store) (i : Nat) : (s.seen[i]?).join = (s.style i).map s.heap.view := by
  unfold Store.seen Store.style
  rw [List.getElem?_map]
  cases s.styles[i]? with
  | none => rfl
  | some t => cases t <;> rfl

theorem seen_same {h h' : Heap} {l : List (Option SharedStyle)}
    (hs : ∀ b ∈ l.flatMap (fun t => (t.map SharedStyle.ptrs).getD []), Same h h' b) :
    l.map (Option.map h'.view) = l.map (Option.map h.view) := by
  refine List.map_congr_left fun t ht => ?_
  cases t with
  | none => rfl
  | some t =>
    simp only [Option.map_some, Option.some.injEq]
    exact view_same fun b hb => hs b (List.mem_flatMap.2 ⟨some t, ht, by simpa using hb⟩)

theorem step_spec {s : Store} (hs : s.Good) (op : Op) :
    match ownStep s.seen op with
    | none => s.step op = .error .useAfterFree
    | some vs => ∃ s', s.step op = .ok s' ∧ s'.Good ∧ s'.seen = vs := by
  have hnew : ∀ (parent : Option SharedStyle) (hp : ∀ p, parent = some p → p.ptrs ⊆ s.held) (m : Option Matching),
      ∃ s', (do
          let (s, t) ← newStyle s parent m
          return { s with styles := s.styles ++ [some t] } : Except Panic Store) = .ok s' ∧ s'.Good ∧
        s'.seen = s.seen ++ [some (Style.new (parent.map s.heap.view) m)] := by
    intro parent hp m
    obtain ⟨s1, t, k1, k2, -, k4, k5, k6, k7, -⟩ := newStyle_spec hs parent hp m
    refine ⟨{ s1 with styles := s1.styles ++ [some t] }, ?_, ⟨?_, k5⟩, ?_⟩
    · rw [k1]
      rfl
    · refine k4.perm ?_
      simp only [Store.held, Store.roots, List.flatMap_append, List.flatMap_cons, List.flatMap_nil, Option.map_some,
        Option.getD_some, List.append_nil]
      exact List.perm_append_comm.trans (by rw [List.append_assoc])
    · unfold Store.seen
      simp only [List.map_append, List.map_cons, List.map_nil, Option.map_some]
      rw [k6, k2, seen_same k7]
  cases op with
  | compute parent m =>
    cases parent with
    | none => exact hnew none (fun _ e => nomatch e) m
    | some i =>
      simp only [ownStep, seen_get]
      cases hi : s.style i with
      | none =>
        simp only [Option.map_none, Store.step, hi]
        rfl
      | some p =>
        simp only [Option.map_some, Store.step, hi]
        exact hnew (some p) (fun q e => by cases e; exact ptrs_held hi) m
  | release i =>
    simp only [ownStep, seen_get]
    cases hi : s.style i with
    | none =>
      simp only [Option.map_none, Store.step, hi]
    | some t =>
      simp only [Option.map_some]
      have hp : (s.roots ++ s.held).Perm
          (Group.all.map t.ptr ++ (s.roots ++ ({ s with styles := s.styles.set i none } : Store).held)) := by
        refine ((held_split hi).append_left _).trans ?_
        rw [← List.append_assoc, ← List.append_assoc]
        exact List.perm_append_comm.append_right _
      obtain ⟨h, k1, k2, k3⟩ := drops_spec t.ptr Group.all (hs.counted.perm hp)
      refine ⟨{ s with heap := h, styles := s.styles.set i none }, ?_, ⟨k2, fun j hj => ?_⟩, ?_⟩
      · simp only [Store.step, hi, k1]
        rfl
      · rw [← hs.initial j hj]
        refine view_same fun b hb => k3 b (List.mem_append_left _ ?_)
        simp only at hj
        simpa [Store.roots, hj] using hb
      · unfold Store.seen
        simp only
        rw [seen_same fun b hb => k3 b (List.mem_append_right _ hb), List.map_set]
        rfl

theorem run_spec : ∀ (ops : List Op) {s : Store}, s.Good →
    match ownRun s.seen ops with
    | none => s.run ops = .error .useAfterFree
    | some vs => ∃ s', s.run ops = .ok s' ∧ s'.Good ∧ s'.seen = vs
  | [], s, hs => ⟨s, rfl, hs, rfl⟩
  | op :: ops, s, hs => by
    have h1 := step_spec hs op
    unfold ownRun Store.run
    rw [List.foldlM_cons, List.foldlM_cons]
    cases hv : ownStep s.seen op with
    | none =>
      rw [hv] at h1
      simp only at h1
      rw [h1]
      rfl
    | some vs =>
      rw [hv] at h1
      obtain ⟨s1, e1, e2, rfl⟩ := h1
      rw [e1]
      exact run_spec ops e2

theorem empty_good : Store.empty.Good where
  counted := ⟨fun a c h => by simp [Store.empty, Heap.cell] at h, fun a h => by
    simp [Store.empty, Store.roots, Store.held] at h⟩
  initial := fun _ h => nomatch h

/-- **C77.** Any program that computes styles and lets go of them: it reads and writes no freed
memory as long as it names only styles that it holds, and it sees the same values as if every style
were a copy of its own — a style is what was computed when it was made, whatever
has been computed or freed since. -/
theorem C77_values (ops : List Op) :
    match ownRun [] ops with
    | none => Store.empty.run ops = .error .useAfterFree
    | some vs => ∃ s, Store.empty.run ops = .ok s ∧ s.seen = vs := by
  have h := run_spec ops empty_good
  change match ownRun [] ops with | none => _ | some vs => _ at h
  cases hv : ownRun [] ops with
  | none =>
    rw [hv] at h
    exact h
  | some vs =>
    rw [hv] at h
    obtain ⟨s, h1, -, h2⟩ := h
    exact ⟨s, h1, h2⟩

theorem run_good {ops : List Op} {s : Store} (h : Store.empty.run ops = .ok s) : s.Good := by
  have h' := run_spec ops empty_good
  split at h'
  · rw [h'] at h
    cases h
  · obtain ⟨s', e1, e2, -⟩ := h'
    rw [e1] at h
    cases h
    exact e2

/-- the number of times that a struct is pointed to by a style -/
def SharedStyle.points (t : SharedStyle) (a : Nat) : Nat := (Group.all.filter fun g => t.ptr g == a).length

theorem ptrs_count (t : SharedStyle) (a : Nat) : t.ptrs.count a = t.points a := by
  unfold SharedStyle.ptrs SharedStyle.points
  rw [List.count, List.countP_map, List.countP_eq_length_filter]
  rfl

/-- **C77.** The structs in memory are exactly those that a held style, or the initial values, point
to, and each has been counted as often as it is pointed to: nothing leaks. -/
theorem C77_counted {ops : List Op} {s : Store} (h : Store.empty.run ops = .ok s) (a : Nat) :
    ((s.heap.cell a).map Cell.strong).getD 0 =
      (((s.styles ++ [s.initial]).filterMap id).map fun t => t.points a).sum := by
  have hc := (run_good h).counted
  have hsum : ∀ l : List (Option SharedStyle), (l.flatMap fun t => (t.map SharedStyle.ptrs).getD []).count a =
      ((l.filterMap id).map fun t => t.points a).sum := by
    intro l
    induction l with
    | nil => rfl
    | cons t l ih =>
      rw [List.flatMap_cons, List.count_append, ih]
      cases t with
      | none => simp
      | some t => simp [ptrs_count]
  have e : (s.roots ++ s.held).count a = (((s.styles ++ [s.initial]).filterMap id).map fun t => t.points a).sum := by
    rw [← hsum]
    simp [Store.roots, Store.held, Nat.add_comm]
  rw [← e]
  cases hx : s.heap.cell a with
  | none =>
    by_contra hn
    have hm : a ∈ s.roots ++ s.held := List.count_pos_iff.1 (by
      simp only [Option.map_none, Option.getD_none] at hn
      omega)
    have := hc.live a hm
    rw [hx] at this
    cases this
  | some c => exact (hc.count a c hx).1

/-- **C77.** After all styles are gone, only the initial values are in memory. -/
theorem C77_freed {ops : List Op} {s : Store} (h : Store.empty.run ops = .ok s)
    (hn : ∀ i, s.style i = none) (a : Nat) (ha : (s.heap.cell a).isSome) :
    ∃ i, s.initial = some i ∧ ∃ g, i.ptr g = a := by
  have hc := (run_good h).counted
  obtain ⟨c, hx⟩ := Option.isSome_iff_exists.1 ha
  have hm : a ∈ s.roots ++ s.held := List.count_pos_iff.1 (by
    have := hc.count a c hx
    omega)
  rcases List.mem_append.1 hm with hm | hm
  · cases hi : s.initial with
    | none => simp [Store.roots, hi] at hm
    | some i =>
      simp only [Store.roots, hi, Option.map_some, Option.getD_some, SharedStyle.ptrs, List.mem_map] at hm
      obtain ⟨g, -, e⟩ := hm
      exact ⟨i, rfl, g, e⟩
  · obtain ⟨t, ht, hb⟩ := List.mem_flatMap.1 hm
    obtain ⟨i, hi⟩ := List.mem_iff_getElem?.1 ht
    have := hn i
    unfold Store.style at this
    rw [hi, Option.join_some] at this
    subst this
    simp at hb

/-- **C77.** What is not declared is not copied: of a new style, every struct in which nothing is
declared is the parent's (or the initial one, if its properties are not inherited) — but the
border struct, which is always the style's own. -/
theorem C77_shared {ops : List Op} {s s' : Store} (h : Store.empty.run ops = .ok s) {parent : Option Nat}
    {m : Option Matching} (h' : s.step (.compute parent m) = .ok s') :
    ∃ t i, s'.style s.styles.length = some t ∧ s'.initial = some i ∧
      (∀ g, g ≠ .border → (∀ m', m = some m' → Undeclared g m') →
        t.ptr g = (if g.inherited then (parent.bind s.style).getD i else i).ptr g) ∧
      (∀ g, i.ptr g ≠ t.ptr .border) ∧ ∀ k u, s.style k = some u → ∀ g, u.ptr g ≠ t.ptr .border := by
  have hp : ∃ p, p = parent.bind s.style ∧ (do
      let (s, t) ← newStyle s p m
      return { s with styles := s.styles ++ [some t] } : Except Panic Store) = .ok s' := by
    cases parent with
    | none => exact ⟨none, rfl, h'⟩
    | some k =>
      simp only [Store.step] at h'
      cases hk : s.style k with
      | none =>
        rw [hk] at h'
        cases h'
      | some q =>
        rw [hk] at h'
        exact ⟨some q, hk.symm, h'⟩
  obtain ⟨p, hp, h'⟩ := hp
  subst hp
  have hsub : ∀ q, parent.bind s.style = some q → q.ptrs ⊆ s.held := by
    intro q hq
    cases parent with
    | none => cases hq
    | some k => exact ptrs_held hq
  obtain ⟨s1, t, k1, k2, -, -, -, -, -, i, j1, j2, j3⟩ := newStyle_spec (run_good h) _ hsub m
  rw [k1] at h'
  cases h'
  have hh : s1.held = s.held := by simp [Store.held, k2]
  refine ⟨t, i, ?_, j1, j3, fun g hg => j2 (List.mem_append_left _ ?_), fun k u hu g hg => j2 (List.mem_append_right _ ?_)⟩
  · simp [Store.style, k2]
  · rw [← hg]
    simpa [Store.roots, j1] using i.ptr_mem g
  · rw [← hg, hh]
    exact ptrs_held hu (u.ptr_mem g)

/-! ## Examples -/

/-- a page, a paragraph in it with a margin, an anonymous box in that; then the page and the paragraph
are gone, and another page is made -/
def heapOps : List Op :=
  [.compute none (some ⟨[], [⟨[.value .fontSize (.absolute 20)], [false], ⟨false, false⟩, ⟨true, false⟩⟩]⟩),
   .compute (some 0) (some ⟨[], [⟨[.value .marginTop (.length (.absolute 3))], [false], ⟨false, false⟩, ⟨false, true⟩⟩]⟩),
   .compute (some 1) none, .release 0, .release 1, .compute none none]

/-- what is left: the anonymous box with the page's size of text, and the new page -/
example : (Store.empty.run heapOps).toOption.map (fun s => s.seen.map (Option.map fun v =>
      (v.val .fontSize, v.val .marginTop))) =
    some [none, none, some (20, .length 0), some (16, .length 0)] := by
  decide +kernel

/-- the counts then, with the structs of the two styles that are left; the page's text properties
(number 10) are shared with the anonymous box and outlive the page; structs 11 to 13, which belonged to
the page and the paragraph alone, are freed -/
example : (Store.empty.run heapOps).toOption.map (fun s => s.heap.cells.map (Option.map Cell.strong)) =
      some [some 2, some 3, some 3, some 3, some 3, some 3, some 3, some 3, some 1, some 3, some 1, none, none,
        none, some 1, some 1] ∧
    (Store.empty.run heapOps).toOption.map (fun s => s.styles.map (Option.map SharedStyle.ptrs)) =
      some [none, none, some [10, 1, 2, 3, 4, 5, 6, 7, 14, 9], some [0, 1, 2, 3, 4, 5, 6, 7, 15, 9]] := by
  decide +kernel

/-- all is let go of: the ten initial structs stay -/
example : (Store.empty.run (heapOps ++ [.release 2, .release 3])).toOption.map (fun s =>
      s.heap.cells.map (Option.map Cell.strong)) =
    some (List.replicate 10 (some 1) ++ List.replicate 6 none) := by
  decide +kernel

/-- a style that is gone cannot be used -/
example : ownRun [] (heapOps ++ [.compute (some 0) none]) = none ∧
    Store.empty.run (heapOps ++ [.compute (some 0) none]) = .error .useAfterFree := by
  have h : ownRun [] (heapOps ++ [.compute (some 0) none]) = none := rfl
  have := C77_values (heapOps ++ [.compute (some 0) none])
  rw [h] at this
  exact ⟨h, this⟩

end Sinab.Shared
