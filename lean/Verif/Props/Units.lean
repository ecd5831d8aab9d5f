import Verif.Model.Font
import Verif.Props.Device
import Verif.Props.GContext
import Mathlib.Tactic.FieldSimp

/-! # C60 units at the device boundary -/

namespace Sinab

/-- reference points of a grob in R coordinates (inches, y upwards) -/
def Grob.points : Grob → List (ℚ × ℚ)
  | .text _ x y _ _ _ => [(x, y)]
  | .rect x y w h _ _ _ => [(x, y), (x + w, y), (x, y - h), (x + w, y - h)]
  | .lines xs ys _ => xs.zip ys

/-- the same points of a drawing call in CSS px (y downwards) -/
def DrawCall.points : DrawCall → List (ℚ × ℚ)
  | .text _ x y _ _ => [(x, y)]
  | .rect x y w h _ => [(x, y), (x + w, y), (x, y + h), (x + w, y + h)]
  | .line pts _ _ _ => pts
  | .bbox .. => []

/-- px to inches with one inversion of the vertical axis -/
def pxToIn (y0 : ℚ) (p : ℚ × ℚ) : ℚ × ℚ := (p.1 / 96, y0 - p.2 / 96)

theorem grob_points (y0 : ℚ) (c : DrawCall) (g : Grob) (h : c.grob y0 = some g) :
    g.points = c.points.map (pxToIn y0) := by
  cases c <;> simp only [DrawCall.grob, Option.some.injEq, reduceCtorEq] at h <;> subst h
  · rfl
  · simp only [Grob.points, DrawCall.points, pxToIn, List.map]
    congr 1; congr 1
    · ext <;> simp; ring
    congr 1
    · ext <;> simp; ring
    congr 1
    ext <;> simp <;> ring
  · simp only [Grob.points, DrawCall.points]
    rw [List.zip_map', ]
    rfl

/-- **C60** everything R receives is the drawn geometry scaled by 1/96 with the
vertical axis turned round once: every reference point of every grob is the
image of the corresponding point of the call with that number. -/
theorem C60_grob_units (y0 : ℚ) (cs : List DrawCall) (hv : ∀ c ∈ cs, c.Valid) (d : RDev)
    (r : Released) (hd : (RDev.new y0).execAll cs = .ok d) (hr : d.release = .ok r) :
    ∃ gs : List Grob, r.grobs = gs.map some ∧
      gs.flatMap Grob.points = (cs.flatMap DrawCall.points).map (pxToIn y0) := by
  obtain ⟨d', r', hd', hr', hg⟩ := C01_grobs_in_order y0 cs hv
  rw [hd] at hd'; cases hd'
  rw [hr] at hr'; cases hr'
  refine ⟨cs.filterMap (DrawCall.grob y0), hg, ?_⟩
  clear hg hr hd hv
  induction cs with
  | nil => rfl
  | cons c cs ih =>
    rw [List.filterMap_cons, List.flatMap_cons, List.map_append, ← ih]
    cases h : c.grob y0 with
    | none =>
      cases c <;> simp_all [DrawCall.grob, DrawCall.points]
    | some g => simp [grob_points y0 c g h]

/-- **C60** distances: horizontal and vertical distances of any two points are
divided by 96, the vertical one changes sign once. -/
theorem C60_distances (y0 : ℚ) (p q : ℚ × ℚ) :
    (pxToIn y0 p).1 - (pxToIn y0 q).1 = (p.1 - q.1) / 96 ∧
    (pxToIn y0 p).2 - (pxToIn y0 q).2 = -((p.2 - q.2) / 96) := by
  constructor <;> simp only [pxToIn] <;> ring

/-- **C60** a page of `w × h` inches is exactly the area between the px origin
and the px page size passed to layout: its corners come back to R as the page
corners. -/
theorem C60_page (w h : ℚ) :
    pxToIn 0 (0, 0) = (0, 0) ∧ pxToIn 0 ((pageSizePx w h).1, (pageSizePx w h).2) = (w, -h) := by
  constructor <;> simp [pxToIn, pageSizePx]

/-- **C60** a piece of text measured in px and drawn at `x` ends in R, with R's
own measure, exactly where something drawn at `x + measured width` starts. -/
theorem C60_metrics (R : Metrics) (f : Font) (label : String) (m : StringMetrics) (y0 x y : ℚ)
    (h : f.stringMetrics R label = .ok m) :
    (pxToIn y0 (x + m.width, y)).1 = (pxToIn y0 (x, y)).1 + (R f.gc label).width ∧
    (pxToIn y0 (x, y + m.descent)).2 = (pxToIn y0 (x, y)).2 - (R f.gc label).descent ∧
    (pxToIn y0 (x, y - m.ascent)).2 = (pxToIn y0 (x, y)).2 + (R f.gc label).ascent := by
  unfold Font.stringMetrics stringMetricsInternal cstring at h
  split at h
  · cases h
  · simp only [bind, Except.bind, pure, Except.pure, Except.ok.injEq] at h
    subst h
    refine ⟨?_, ?_, ?_⟩ <;> simp only [pxToIn] <;> ring

/-- **C60** the font size set in px arrives in R in points, 72 points being 96
px, and reading it back gives the px value. -/
theorem C60_fontsize (R : Metrics) (name : String) (s : FontStyle) (w : FontWeight) (size : Length)
    (f : Font) (h : Font.new R name s w size = .ok f) :
    (gparOf f.gc).fontsize / 72 = size / 96 ∧ f.gc.getFontsize = size ∧ f.size = size := by
  unfold Font.new fontGCtx at h
  cases hgc : GCtx.new.setFontfamily name with
  | error e => simp [hgc, bind, Except.bind] at h
  | ok gc =>
    simp only [hgc, bind, Except.bind, pure, Except.pure] at h
    split at h
    · cases h
    split at h
    · cases h
    simp only [Except.ok.injEq] at h
    subst h
    simp only [gparOf, GCtx.setFontsize, GCtx.getFontsize]
    refine ⟨?_, ?_, trivial⟩ <;> ring

/-- a fixed-pitch font of 1/10 inch per character -/
def exampleMetrics : Metrics := fun _ s => ⟨1/6, 1/20, (s.length : ℚ) / 10⟩

example : ∃ f, Font.new exampleMetrics "Helvetica" .italic .bold 16 = .ok f ∧ f.gc.fontsize = 12 ∧
    f.stringMetrics exampleMetrics "word" = .ok ⟨16, 24/5, 192/5⟩ :=
  ⟨_, rfl, by decide +kernel, by decide +kernel⟩

example : ∃ d r, (RDev.new 0).execAll [.text "hello" 48 96 GCtx.new ⟨0,0,0,255⟩,
      .bbox 0 0 10 10, .rect 0 0 96 48 ⟨255,0,0,255⟩] = .ok d ∧ d.release = .ok r ∧
      r.grobs.length = 2 := ⟨_, _, rfl, rfl, by decide +kernel⟩

end Sinab
