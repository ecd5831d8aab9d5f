import Verif.Model.Device
import Verif.Lemmas.Color
import Verif.Props.Color
import Mathlib.Data.List.Basic
import Mathlib.Data.List.Perm.Basic
import Mathlib.Tactic.Linarith
import Mathlib.Tactic.Ring

/-! # C01 grobs in drawing order, C02 bounding box, C60 units at the device boundary -/

namespace Sinab

/-! ## Specification -/

/-- the `gpar` of a device call that sets nothing: R defaults of a new context -/
def defaultGpar : Gpar where
  col := "black"
  fill := "black"
  fontfamily := ""
  fontface := 1
  fontsize := 12
  lineheight := 6/5
  lty := .code 1
  lwd := 1
  lineend := "butt"

/-- R line type of a CSS border style -/
def ltyOf : LineStyle → Lty
  | .none => .code 0
  | .solid => .code 1
  | .dashed => .pattern "21"
  | .dotted => .pattern "11"

/-- The grob a drawing call stands for: positions in inches (96 px per inch),
vertical axis pointing upwards from `y0`; text anchored at its left baseline,
rectangles at their top left corner, rectangles drawn without outline. -/
def DrawCall.grob (y0 : ℚ) : DrawCall → Option Grob
  | .text label x y font color =>
    some (.text label (x / 96) (y0 - y / 96) 0 0 { gparOf font with col := color.toStr })
  | .rect x y w h fill =>
    some (.rect (x / 96) (y0 - y / 96) (w / 96) (h / 96) 0 1
      { defaultGpar with col := "#00000000", fill := fill.toStr })
  | .line pts color width style =>
    some (.lines (pts.map fun p => p.1 / 96) (pts.map fun p => y0 - p.2 / 96)
      { defaultGpar with col := color.toStr, lty := ltyOf style, lwd := width })
  | .bbox .. => none

/-- A call the Rust side can hand over: text labels are valid C strings. -/
def DrawCall.Valid : DrawCall → Prop
  | .text label .. => '\x00' ∉ label.toList
  | _ => True

/-- The rectangle recorded by a call, in inches with the vertical axis pointing
upwards: two opposite corners. -/
def DrawCall.corners (y0 : ℚ) : DrawCall → Option ((ℚ × ℚ) × (ℚ × ℚ))
  | .bbox x y w h => some ((x / 96, y0 - y / 96), ((x + w) / 96, y0 - (y + h) / 96))
  | _ => none

/-- `p` lies in the box `b` -/
def BBox.Has (b : BBox) (p : ℚ × ℚ) : Prop :=
  b.xmin ≤ p.1 ∧ p.1 ≤ b.xmax ∧ b.ymin ≤ p.2 ∧ p.2 ≤ b.ymax

/-! ## Buffer lemmas -/

theorem copyElts_spec {α : Type} (old : List (Option α)) : ∀ (todo i : Nat) (new : List (Option α)),
    i + todo ≤ old.length → i + todo ≤ new.length → new.take i = old.take i →
    ∃ r, copyElts old i todo new = .ok r ∧ r.length = new.length ∧
      r.take (i + todo) = old.take (i + todo) := by
  intro todo
  induction todo with
  | zero => intro i new _ _ h; exact ⟨new, rfl, rfl, by simpa using h⟩
  | succ todo ih =>
    intro i new ho hn h
    have hi : i < old.length := by omega
    have hi' : i < new.length := by omega
    have hstep : (new.set i old[i]).take (i + 1) = old.take (i + 1) := by
      rw [List.take_add_one, List.take_add_one, List.take_set_of_le (by omega), h]
      simp [hi, hi']
    obtain ⟨r, hr, hl, ht⟩ := ih (i + 1) (new.set i old[i]) (by omega) (by simpa using by omega) hstep
    refine ⟨r, ?_, by simpa using hl, ?_⟩
    · simp only [copyElts, vectorElt, hi, List.getElem?_eq_getElem, setVectorElt, hi', if_true,
        bind, Except.bind]
      exact hr
    · rw [show i + (todo + 1) = i + 1 + todo by omega]; exact ht

/-- Invariant of the device buffer: it holds the grobs `gs`. -/
structure RDev.Holds (d : RDev) (gs : List Grob) : Prop where
  size : d.size = gs.length
  cap : d.grobs.length = d.capacity
  le : d.size ≤ d.capacity
  pos : 0 < d.capacity
  take : d.grobs.take d.size = gs.map some

theorem RDev.grow_spec {d : RDev} {gs : List Grob} (h : d.Holds gs) :
    ∃ d', d.grow = .ok d' ∧ d'.Holds gs ∧ d'.capacity = 2 * d.capacity ∧ d'.y0 = d.y0 ∧
      d'.bb = d.bb ∧ d'.bbSet = d.bbSet := by
  obtain ⟨r, hr, hl, ht⟩ := copyElts_spec d.grobs d.size 0 (allocVector (2 * d.capacity))
    (by have := h.le; have := h.cap; omega) (by simp [allocVector]; have := h.le; omega) (by simp)
  refine ⟨{ d with grobs := r, capacity := 2 * d.capacity }, ?_, ?_, rfl, rfl, rfl, rfl⟩
  · simp [RDev.grow, hr, bind, Except.bind, pure, Except.pure]
  · refine ⟨h.size, by simpa [allocVector] using hl, ?_, ?_, ?_⟩
    · have := h.le; show d.size ≤ 2 * d.capacity; omega
    · have := h.pos; show 0 < 2 * d.capacity; omega
    · simp only [Nat.zero_add] at ht; exact ht.trans h.take

theorem RDev.add_spec {d : RDev} {gs : List Grob} (h : d.Holds gs) (g : Grob) :
    ∃ d', d.add g = .ok d' ∧ d'.Holds (gs ++ [g]) ∧ d'.y0 = d.y0 ∧ d'.bb = d.bb ∧
      d'.bbSet = d.bbSet := by
  have key : ∀ d1 : RDev, d1.Holds gs → d1.size < d1.capacity →
      ∃ d', (do
        let grobs ← setVectorElt d1.grobs d1.size (some g)
        return { d1 with grobs := grobs, size := d1.size + 1 } : Except Panic RDev) = .ok d' ∧
        d'.Holds (gs ++ [g]) ∧ d'.y0 = d1.y0 ∧ d'.bb = d1.bb ∧ d'.bbSet = d1.bbSet := by
    intro d1 h1 hlt
    have hl : d1.size < d1.grobs.length := by rw [h1.cap]; exact hlt
    refine ⟨{ d1 with grobs := d1.grobs.set d1.size (some g), size := d1.size + 1 }, ?_, ?_,
      rfl, rfl, rfl⟩
    · simp [setVectorElt, hl, bind, Except.bind, pure, Except.pure]
    · refine ⟨by simp [h1.size], by simpa using h1.cap, hlt, h1.pos, ?_⟩
      show (d1.grobs.set d1.size (some g)).take (d1.size + 1) = _
      rw [List.take_add_one, List.take_set_of_le (by omega), h1.take]
      simp [hl]
  unfold RDev.add
  by_cases hc : d.size = d.capacity
  · obtain ⟨d1, hg, hh, hcap, hy, hb, hs⟩ := RDev.grow_spec h
    obtain ⟨d', hd, hh', hy', hb', hs'⟩ := key d1 hh (by
      have h1 := hh.size; have h2 := h.size; have h3 := h.pos; omega)
    refine ⟨d', ?_, hh', hy'.trans hy, hb'.trans hb, hs'.trans hs⟩
    simp only [hc, if_true, hg, bind, Except.bind] at hd ⊢
    exact hd
  · obtain ⟨d', hd, hh', hy', hb', hs'⟩ := key d h (by have := h.le; omega)
    refine ⟨d', ?_, hh', hy', hb', hs'⟩
    simp only [hc, if_false, bind, Except.bind, pure, Except.pure] at hd ⊢
    exact hd

theorem RDev.new_holds (y0 : ℚ) : (RDev.new y0).Holds [] :=
  ⟨rfl, by simp [RDev.new, allocVector], by simp [RDev.new], by simp [RDev.new], by simp [RDev.new]⟩

theorem RDev.release_spec {d : RDev} {gs : List Grob} (h : d.Holds gs) :
    d.release = .ok ⟨gs.map some, if d.bbSet then some d.bb else none⟩ := by
  obtain ⟨r, hr, hl, ht⟩ := copyElts_spec d.grobs d.size 0 (allocVector d.size)
    (by have := h.le; have := h.cap; omega) (by simp [allocVector]) (by simp)
  have hrl : r.length = d.size := by simpa [allocVector] using hl
  simp only [Nat.zero_add] at ht
  rw [List.take_of_length_le (by omega), h.take] at ht
  simp [RDev.release, hr, bind, Except.bind, pure, Except.pure, ht]

/-- the box after recording, as minima and maxima -/
theorem RDev.recordBBox_eq (d : RDev) (a b c e : ℚ) : d.recordBBox a b c e =
    { d with
      bb := if d.bbSet then
          ⟨min d.bb.xmin (min a c), min d.bb.ymin (min (d.y0 - b) (d.y0 - e)),
            max d.bb.xmax (max a c), max d.bb.ymax (max (d.y0 - b) (d.y0 - e))⟩
        else ⟨min a c, min (d.y0 - b) (d.y0 - e), max a c, max (d.y0 - b) (d.y0 - e)⟩
      bbSet := true } := by
  have swap : ∀ x y : ℚ, (if x > y then (y, x) else (x, y)) = (min x y, max x y) := by
    intro x y
    split
    · rename_i hlt; rw [min_eq_right (le_of_lt hlt), max_eq_left (le_of_lt hlt)]
    · rename_i hlt; rw [min_eq_left (not_lt.mp hlt), max_eq_right (not_lt.mp hlt)]
  have hmin : ∀ x y : ℚ, (if x < y then x else y) = min y x := by
    intro x y
    split
    · rename_i hlt; rw [min_eq_right (le_of_lt hlt)]
    · rename_i hlt; rw [min_eq_left (not_lt.mp hlt)]
  have hmax : ∀ x y : ℚ, (if x > y then x else y) = max y x := by
    intro x y
    split
    · rename_i hlt; rw [max_eq_right (le_of_lt hlt)]
    · rename_i hlt; rw [max_eq_left (not_lt.mp hlt)]
  unfold RDev.recordBBox
  simp only [swap, hmin, hmax]
  cases hb : d.bbSet <;> simp

theorem RDev.recordBBox_holds {d : RDev} {gs : List Grob} (h : d.Holds gs) (a b c e : ℚ) :
    (d.recordBBox a b c e).Holds gs ∧ (d.recordBBox a b c e).y0 = d.y0 := by
  rw [RDev.recordBBox_eq]
  exact ⟨⟨h.size, h.cap, h.le, h.pos, h.take⟩, rfl⟩

theorem cstring_valid {s : String} (h : '\x00' ∉ s.toList) : cstring s = .ok s := by
  unfold cstring
  rw [if_neg (by simpa using h)]

/-- One call: the buffer gets the specified grob, the box changes only for `bbox`. -/
theorem RDev.exec_spec {d : RDev} {gs : List Grob} (h : d.Holds gs) (c : DrawCall) (hv : c.Valid) :
    ∃ d', d.exec c = .ok d' ∧ d'.Holds (gs ++ (c.grob d.y0).toList) ∧ d'.y0 = d.y0 ∧
      (match c with
       | .bbox x y w hh => d'.bb = (d.recordBBox (x/96) (y/96) (x/96+w/96) (y/96+hh/96)).bb ∧
            d'.bbSet = (d.recordBBox (x/96) (y/96) (x/96+w/96) (y/96+hh/96)).bbSet
       | _ => d'.bb = d.bb ∧ d'.bbSet = d.bbSet) := by
  cases c with
  | text label x y font color =>
    obtain ⟨d', hd, hh, hy, hb, hs⟩ := RDev.add_spec h
      (.text label (x / 96) (d.y0 - y / 96) 0 0 { gparOf font with col := color.toStr })
    refine ⟨d', ?_, by simpa [DrawCall.grob] using hh, hy, hb, hs⟩
    simp only [RDev.exec, cstring_valid hv, GCtx.setColor_ok, bind, Except.bind, RDev.drawText]
    exact hd
  | rect x y w hh fill =>
    obtain ⟨d', hd, hh, hy, hb, hs⟩ := RDev.add_spec h
      (.rect (x / 96) (d.y0 - y / 96) (w / 96) (hh / 96) 0 1
        { defaultGpar with col := "#00000000", fill := fill.toStr })
    refine ⟨d', ?_, by simpa [DrawCall.grob] using hh, hy, hb, hs⟩
    simp only [RDev.exec, GCtx.setColor_ok, GCtx.setFill_ok, bind, Except.bind, RDev.drawRect]
    exact hd
  | line pts color width style =>
    obtain ⟨d', hd, hh, hy, hb, hs⟩ := RDev.add_spec h
      (.lines (pts.map fun p => p.1 / 96) (pts.map fun p => d.y0 - p.2 / 96)
        { defaultGpar with col := color.toStr, lty := ltyOf style, lwd := width })
    refine ⟨d', ?_, by simpa [DrawCall.grob] using hh, hy, hb, hs⟩
    simp only [RDev.exec, GCtx.setColor_ok, bind, Except.bind, RDev.drawLine]
    rw [← hd]
    congr 1
    simp only [List.map_map, Function.comp_def]
    congr 1
    cases style <;> rfl
  | bbox x y w hh =>
    refine ⟨_, rfl, ?_, (RDev.recordBBox_holds h _ _ _ _).2, rfl, rfl⟩
    simpa [DrawCall.grob] using (RDev.recordBBox_holds h _ _ _ _).1

theorem RDev.execAll_holds (cs : List DrawCall) : ∀ (d : RDev) (gs : List Grob), d.Holds gs →
    (∀ c ∈ cs, c.Valid) →
    ∃ d', d.execAll cs = .ok d' ∧ d'.Holds (gs ++ cs.filterMap (·.grob d.y0)) ∧ d'.y0 = d.y0 := by
  induction cs with
  | nil => intro d gs h _; exact ⟨d, rfl, by simpa using h, rfl⟩
  | cons c cs ih =>
    intro d gs h hv
    obtain ⟨d1, h1, hh1, hy1, _⟩ := RDev.exec_spec h c (hv c (by simp))
    obtain ⟨d2, h2, hh2, hy2⟩ := ih d1 _ hh1 (fun c hc => hv c (by simp [hc]))
    refine ⟨d2, by simp [RDev.execAll, h1, h2, bind, Except.bind], ?_, hy2.trans hy1⟩
    rw [hy1] at hh2
    cases hg : c.grob d.y0 <;> simpa [hg, List.filterMap_cons] using hh2

/-- **C01** For every sequence of draw calls, drawing and releasing succeeds (no
write outside the buffer) and R receives exactly the grobs of the calls in call
order. -/
theorem C01_grobs_in_order (y0 : ℚ) (cs : List DrawCall) (hv : ∀ c ∈ cs, c.Valid) :
    ∃ d r, (RDev.new y0).execAll cs = .ok d ∧ d.release = .ok r ∧
      r.grobs = (cs.filterMap (·.grob y0)).map some := by
  obtain ⟨d, hd, hh, _⟩ := RDev.execAll_holds cs _ _ (RDev.new_holds y0) hv
  refine ⟨d, _, hd, RDev.release_spec hh, ?_⟩
  simp [RDev.new]

/-- **C01** the number of grobs is the number of drawing calls. -/
theorem C01_grob_count (y0 : ℚ) (cs : List DrawCall) (hv : ∀ c ∈ cs, c.Valid) (d : RDev)
    (r : Released) (hd : (RDev.new y0).execAll cs = .ok d) (hr : d.release = .ok r) :
    r.grobs.length = (cs.filter (fun c => match c with | .bbox .. => false | _ => true)).length := by
  obtain ⟨d', r', hd', hr', hg⟩ := C01_grobs_in_order y0 cs hv
  rw [hd] at hd'
  cases hd'
  rw [hr] at hr'
  cases hr'
  rw [hg]
  clear * -
  induction cs with
  | nil => rfl
  | cons c cs ih => cases c <;> simp_all [DrawCall.grob]

/-- seven drawings, so the buffer of five has to grow -/
example : ∃ d r, (RDev.new 0).execAll
    (List.replicate 7 (.rect 96 48 96 96 ⟨1, 2, 3, 255⟩)) = .ok d ∧ d.release = .ok r ∧
    r.grobs.length = 7 ∧ d.capacity = 10 := by
  refine ⟨_, _, rfl, rfl, ?_, ?_⟩ <;> decide +kernel

/-! ## C02 -/

/-- the set of recorded corner points -/
def recorded (y0 : ℚ) (cs : List DrawCall) : List (ℚ × ℚ) :=
  cs.flatMap fun c => match c.corners y0 with
    | some (p, q) => [p, q]
    | none => []

/-- `b` is the smallest box with the points `ps` -/
def BBox.IsHull (b : BBox) (ps : List (ℚ × ℚ)) : Prop :=
  (∀ p ∈ ps, b.Has p) ∧
  ∀ b' : BBox, (∀ p ∈ ps, b'.Has p) →
    b'.xmin ≤ b.xmin ∧ b'.ymin ≤ b.ymin ∧ b.xmax ≤ b'.xmax ∧ b.ymax ≤ b'.ymax

theorem BBox.IsHull.pair (p q : ℚ × ℚ) :
    (⟨min p.1 q.1, min p.2 q.2, max p.1 q.1, max p.2 q.2⟩ : BBox).IsHull [p, q] := by
  constructor
  · intro r hr
    simp only [List.mem_cons, List.not_mem_nil, or_false] at hr
    rcases hr with rfl | rfl <;> simp [BBox.Has]
  · intro b' hb
    have hp := hb p (by simp)
    have hq := hb q (by simp)
    simp only [BBox.Has] at hp hq
    exact ⟨le_min hp.1 hq.1, le_min hp.2.2.1 hq.2.2.1, max_le hp.2.1 hq.2.1,
      max_le hp.2.2.2 hq.2.2.2⟩

theorem BBox.IsHull.union {b1 b2 : BBox} {ps qs : List (ℚ × ℚ)} (h1 : b1.IsHull ps)
    (h2 : b2.IsHull qs) :
    (⟨min b1.xmin b2.xmin, min b1.ymin b2.ymin, max b1.xmax b2.xmax, max b1.ymax b2.ymax⟩ :
        BBox).IsHull (ps ++ qs) := by
  constructor
  · intro r hr
    rcases List.mem_append.mp hr with hr | hr
    · obtain ⟨x1, x2, x3, x4⟩ := h1.1 r hr
      exact ⟨(min_le_left _ _).trans x1, x2.trans (le_max_left _ _),
        (min_le_left _ _).trans x3, x4.trans (le_max_left _ _)⟩
    · obtain ⟨x1, x2, x3, x4⟩ := h2.1 r hr
      exact ⟨(min_le_right _ _).trans x1, x2.trans (le_max_right _ _),
        (min_le_right _ _).trans x3, x4.trans (le_max_right _ _)⟩
  · intro b' hb
    obtain ⟨x1, x2, x3, x4⟩ := h1.2 b' (fun p hp => hb p (by simp [hp]))
    obtain ⟨y1, y2, y3, y4⟩ := h2.2 b' (fun p hp => hb p (by simp [hp]))
    exact ⟨le_min x1 y1, le_min x2 y2, max_le x3 y3, max_le x4 y4⟩

/-- Invariant of the bounding box fields. -/
def RDev.BoxInv (d : RDev) (ps : List (ℚ × ℚ)) : Prop :=
  (d.bbSet = true ∧ ps ≠ [] ∧ d.bb.IsHull ps) ∨ (d.bbSet = false ∧ ps = [])

theorem RDev.recordBBox_inv {d : RDev} {ps : List (ℚ × ℚ)} (a b c e : ℚ) (h : d.BoxInv ps) :
    (d.recordBBox a b c e).BoxInv (ps ++ [(a, d.y0 - b), (c, d.y0 - e)]) := by
  rw [RDev.recordBBox_eq]
  have hpair := BBox.IsHull.pair (a, d.y0 - b) (c, d.y0 - e)
  dsimp only at hpair
  rcases h with ⟨hs, hne, hh⟩ | ⟨hs, rfl⟩
  · refine Or.inl ⟨rfl, by simp, ?_⟩
    have hu := hh.union hpair
    simp only [hs, if_true]
    exact hu
  · refine Or.inl ⟨rfl, by simp, ?_⟩
    simp only [hs, Bool.false_eq_true, if_false]
    exact hpair

theorem RDev.execAll_inv (cs : List DrawCall) : ∀ (d : RDev) (gs : List Grob) (ps : List (ℚ × ℚ)),
    d.Holds gs → (∀ c ∈ cs, c.Valid) → d.BoxInv ps →
    ∃ d' gs', d.execAll cs = .ok d' ∧ d'.Holds gs' ∧ d'.BoxInv (ps ++ recorded d.y0 cs) := by
  induction cs with
  | nil => intro d gs ps h _ hb; exact ⟨d, gs, rfl, h, by simpa [recorded] using hb⟩
  | cons c cs ih =>
    intro d gs ps h hv hb
    obtain ⟨d1, h1, hh1, hy1, hbb⟩ := RDev.exec_spec h c (hv c (by simp))
    have hb1 : d1.BoxInv (ps ++ recorded d.y0 [c]) := by
      cases c with
      | bbox x y w hh =>
        have := RDev.recordBBox_inv (x/96) (y/96) (x/96+w/96) (y/96+hh/96) hb
        simp only at hbb
        unfold RDev.BoxInv at this ⊢
        rw [hbb.1, hbb.2]
        simpa [recorded, DrawCall.corners, add_div] using this
      | _ =>
        simp only at hbb
        unfold RDev.BoxInv at hb ⊢
        rw [hbb.1, hbb.2]
        simpa [recorded, DrawCall.corners] using hb
    obtain ⟨d2, gs2, h2, hh2, hb2⟩ := ih d1 _ _ hh1 (fun c hc => hv c (by simp [hc])) hb1
    refine ⟨d2, gs2, by simp [RDev.execAll, h1, h2, bind, Except.bind], hh2, ?_⟩
    rw [hy1] at hb2
    simpa [recorded] using hb2

/-- **C02** The extent reported to R is absent exactly if nothing was recorded,
and otherwise is the smallest box that has the corners of all recorded
rectangles. -/
theorem C02_bbox_hull (y0 : ℚ) (cs : List DrawCall) (hv : ∀ c ∈ cs, c.Valid) :
    ∃ d r, (RDev.new y0).execAll cs = .ok d ∧ d.release = .ok r ∧
      (r.bbox = none ↔ recorded y0 cs = []) ∧
      ∀ b, r.bbox = some b → b.IsHull (recorded y0 cs) := by
  obtain ⟨d, gs, hd, hh, hb⟩ := RDev.execAll_inv cs (RDev.new y0) [] [] (RDev.new_holds y0) hv
    (Or.inr ⟨rfl, rfl⟩)
  refine ⟨d, _, hd, RDev.release_spec hh, ?_, ?_⟩
  · rcases hb with ⟨hs, hne, _⟩ | ⟨hs, he⟩
    · simpa [hs, RDev.new] using hne
    · simpa [hs, RDev.new] using he
  · intro b hbb
    rcases hb with ⟨hs, hne, hhull⟩ | ⟨hs, he⟩
    · simp only [hs, if_true, Option.some.injEq] at hbb
      subst hbb
      simpa [RDev.new] using hhull
    · simp [hs] at hbb

theorem BBox.IsHull.unique {b b' : BBox} {ps : List (ℚ × ℚ)} (h : b.IsHull ps)
    (h' : b'.IsHull ps) : b = b' := by
  obtain ⟨x1, x2, x3, x4⟩ := h.2 b' h'.1
  obtain ⟨y1, y2, y3, y4⟩ := h'.2 b h.1
  cases b; cases b'
  simp only [BBox.mk.injEq] at *
  exact ⟨le_antisymm y1 x1, le_antisymm y2 x2, le_antisymm x3 y3, le_antisymm x4 y4⟩

/-- **C02** The extent does not depend on the order of the calls. -/
theorem C02_bbox_order (y0 : ℚ) (cs cs' : List DrawCall) (hp : cs.Perm cs')
    (hv : ∀ c ∈ cs, c.Valid) (d d' : RDev) (r r' : Released)
    (hd : (RDev.new y0).execAll cs = .ok d) (hr : d.release = .ok r)
    (hd' : (RDev.new y0).execAll cs' = .ok d') (hr' : d'.release = .ok r') :
    r.bbox = r'.bbox := by
  obtain ⟨e, s, he, hs, hn, hh⟩ := C02_bbox_hull y0 cs hv
  obtain ⟨e', s', he', hs', hn', hh'⟩ := C02_bbox_hull y0 cs' (fun c hc => hv c (hp.mem_iff.mpr hc))
  rw [hd] at he; cases he; rw [hr] at hs; cases hs
  rw [hd'] at he'; cases he'; rw [hr'] at hs'; cases hs'
  have hrec : (recorded y0 cs).Perm (recorded y0 cs') := hp.flatMap_right _
  cases hb : r.bbox with
  | none =>
    have := hn.mp hb
    rw [this] at hrec
    exact (hn'.mpr (List.Perm.eq_nil hrec.symm)).symm
  | some b =>
    cases hb' : r'.bbox with
    | none =>
      have := hn'.mp hb'
      rw [this] at hrec
      have := hn.mpr (List.Perm.eq_nil hrec)
      rw [hb] at this; exact this
    | some b' =>
      have h1 := hh b hb
      have h2 := hh' b' hb'
      have h3 : b'.IsHull (recorded y0 cs) :=
        ⟨fun p hp => h2.1 p (hrec.mem_iff.mp hp),
         fun b'' hb'' => h2.2 b'' (fun p hp => hb'' p (hrec.mem_iff.mpr hp))⟩
      rw [h1.unique h3]

example : ∃ d r, (RDev.new 0).execAll
      [.bbox 0 0 96 192, .rect 0 0 1 1 ⟨0, 0, 0, 255⟩, .bbox 96 (-96) (-192) 48] = .ok d ∧
    d.release = .ok r ∧ r.bbox = some ⟨-1, -2, 1, 1⟩ := by
  refine ⟨_, _, rfl, rfl, ?_⟩
  decide +kernel

end Sinab
