import Verif.Model.HtmlGrob
import Verif.Props.Render

/-! # C70 `html_grob()`: size and position of the rendered text -/

namespace Sinab

/-- the location `x`, `y` of the grob on the page, in inches: a location in the viewport in
which the grob is drawn (the current viewport, or the one given as `vp`) -/
def HtmlGrob.anchor (g : HtmlGrob) (r : Region) : ℚ × ℚ :=
  ((r.pushAll g.vp).left + g.x.inch (r.pushAll g.vp).width,
   (r.pushAll g.vp).bottom + g.y.inch (r.pushAll g.vp).height)

/-- `text` is drawn: the width in inches available for it, its height, and the result -/
def HtmlGrob.Renders (X : Externals) (n : Nat) (r : Region) (g : HtmlGrob) (out : Released) : Prop :=
  X.renderMarkdown n g.text g.css
    (match g.width with | some w => w.inch (r.pushAll g.vp).width | none => (r.pushAll g.vp).width)
    (match g.height with | some h => h.inch (r.pushAll g.vp).height | none => (r.pushAll g.vp).height)
    = .ok out

theorem currentWidth_eq (r : Region) (vp : List Vp) (w : Option RUnit) : currentWidth r vp w =
    match w with | some w => w.inch (r.pushAll vp).width | none => (r.pushAll vp).width := by
  cases w with
  | some w => rfl
  | none => simp [currentWidth, RUnit.inch]

theorem currentHeight_eq (r : Region) (vp : List Vp) (w : Option RUnit) : currentHeight r vp w =
    match w with | some w => w.inch (r.pushAll vp).height | none => (r.pushAll vp).height := by
  cases w with
  | some w => rfl
  | none => simp [currentHeight, RUnit.inch]

theorem makeContext_ok {X : Externals} {n : Nat} {r : Region} {g : HtmlGrob} {out : Released}
    (h : g.Renders X n r out) : X.makeContext n r g = .ok
      { HtmlGrob.sized { g with
          widthInch := currentWidth r g.vp g.width
          heightInch := currentHeight r g.vp g.height } out.bbox with
        vp := g.vp ++ [{ x := g.x, y := g.y, hjust := g.hjust, vjust := 1 - g.vjust }]
        children := out } := by
  unfold HtmlGrob.Renders at h
  rw [← currentWidth_eq, ← currentHeight_eq] at h
  unfold Externals.makeContext
  simp only [h, bind, Except.bind, pure, Except.pure]
  cases out.bbox <;> rfl

/-! ## Size -/

/-- The size that is reported to grid: the width and height the user has asked for, and the size
of the bounding box of the rendered text for those that are `NULL`.  The ascent is the height,
the descent is 0. -/
theorem C70_size {X : Externals} {n : Nat} {r : Region} {g : HtmlGrob} {out : Released}
    (h : g.Renders X n r out) : ∃ g', X.makeContext n r g = .ok g' ∧
      (∀ w, g.width = some w → g'.widthDetails = w.inch (r.pushAll g.vp).width) ∧
      (∀ w, g.height = some w → g'.heightDetails = w.inch (r.pushAll g.vp).height) ∧
      (∀ b, out.bbox = some b → g.width = none → g'.widthDetails = b.xmax - b.xmin) ∧
      (∀ b, out.bbox = some b → g.height = none → g'.heightDetails = b.ymax - b.ymin) ∧
      g'.ascentDetails + g'.descentDetails = g'.heightDetails := by
  refine ⟨_, makeContext_ok h, ?_, ?_, ?_, ?_, ?_⟩
  · intro w hw
    cases out.bbox <;>
      simp [HtmlGrob.sized, HtmlGrob.widthDetails, hw, currentWidth]
  · intro w hw
    cases out.bbox <;>
      simp [HtmlGrob.sized, HtmlGrob.heightDetails, hw, currentHeight]
  · intro b hb hw
    simp [HtmlGrob.sized, HtmlGrob.widthDetails, hw, hb]
  · intro b hb hw
    simp [HtmlGrob.sized, HtmlGrob.heightDetails, hw, hb]
  · simp [HtmlGrob.ascentDetails, HtmlGrob.descentDetails, HtmlGrob.heightDetails]

/-! ## Position -/

theorem pushAll_snoc (r : Region) (vs : List Vp) (v : Vp) :
    r.pushAll (vs ++ [v]) = (r.pushAll vs).push v := by
  simp [Region.pushAll]

/-- `b` is `a` at another place: `dx` to the right and `dy` up -/
inductive Shifted (dx dy : ℚ) : Grob → Grob → Prop
  | text {label x y x' y' hjust vjust gp} : x' - x = dx → y' - y = dy →
    Shifted dx dy (.text label x y hjust vjust gp) (.text label x' y' hjust vjust gp)
  | rect {x y x' y' width height hjust vjust gp} : x' - x = dx → y' - y = dy →
    Shifted dx dy (.rect x y width height hjust vjust gp) (.rect x' y' width height hjust vjust gp)
  | lines {xs ys xs' ys' gp} : List.Forall₂ (fun x x' => x' - x = dx) xs xs' →
    List.Forall₂ (fun y y' => y' - y = dy) ys ys' → Shifted dx dy (.lines xs ys gp) (.lines xs' ys' gp)

/-- `bs` is the picture `as` at another place -/
def SamePicture (dx dy : ℚ) (as bs : List Grob) : Prop := List.Forall₂ (Shifted dx dy) as bs

theorem shifted_moved (dx dy : ℚ) (k : Grob) : Shifted dx dy k (k.moved dx dy) := by
  have h : ∀ (d : ℚ) (l : List ℚ), List.Forall₂ (fun x x' => x' - x = d) l (l.map (d + ·)) := by
    intro d l
    induction l with
    | nil => exact .nil
    | cons a l ih => exact .cons (by ring) ih
  cases k with
  | text => exact .text (by ring) (by ring)
  | rect => exact .rect (by ring) (by ring)
  | lines => exact .lines (h _ _) (h _ _)

theorem samePicture_moved (dx dy : ℚ) (gs : List Grob) : SamePicture dx dy gs (gs.map (Grob.moved dx dy)) := by
  unfold SamePicture
  induction gs with
  | nil => exact .nil
  | cons a l ih => exact .cons (shifted_moved _ _ a) ih

/-- where the page is put: exactly -/
theorem gridDraw_ok {X : Externals} {n : Nat} {r : Region} {g : HtmlGrob} {out : Released}
    (h : g.Renders X n r out) : X.gridDraw n r g = .ok ((out.grobs.filterMap id).map (Grob.moved
      ((g.anchor r).1 - g.hjust * (r.pushAll g.vp).width)
      ((g.anchor r).2 - (1 - g.vjust) * (r.pushAll g.vp).height))) := by
  unfold Externals.gridDraw
  rw [makeContext_ok h]
  simp only [bind, Except.bind, pure, Except.pure, pushAll_snoc, Region.push, RUnit.inch,
    HtmlGrob.anchor, one_mul, add_zero]

/-- With the documentation: the rendered text, whose extent is the bounding box, is justified
relative to `x`, `y`: it is moved such that the point at the fraction `hjust` of its width and
`vjust` of its height is at `x`, `y`. -/
def C70_full : Prop :=
  ∀ (X : Externals) (n : Nat) (r : Region) (g : HtmlGrob) (out : Released) (b : BBox),
    g.Renders X n r out → out.bbox = some b →
    ∃ dx dy gs, X.gridDraw n r g = .ok gs ∧ SamePicture dx dy (out.grobs.filterMap id) gs ∧
      dx + (b.xmin + g.hjust * (b.xmax - b.xmin)) = (g.anchor r).1 ∧
      dy + (b.ymin + g.vjust * (b.ymax - b.ymin)) = (g.anchor r).2

/-- For `hjust = 0`, `vjust = 1` (the default): the top left corner of the text is at `x`, `y`,
if nothing sticks out of the page on the left or at the top.  What is missing for other values:
the text is moved by multiples of the size of the viewport instead of its own size, and
vertically to the wrong side. -/
theorem C70_position_partial {X : Externals} {n : Nat} {r : Region} {g : HtmlGrob} {out : Released}
    {b : BBox} (h : g.Renders X n r out) (hj : g.hjust = 0) (vj : g.vjust = 1)
    (hx : b.xmin = 0) (hy : b.ymax = 0) :
    ∃ dx dy gs, X.gridDraw n r g = .ok gs ∧ SamePicture dx dy (out.grobs.filterMap id) gs ∧
      dx + (b.xmin + g.hjust * (b.xmax - b.xmin)) = (g.anchor r).1 ∧
      dy + (b.ymin + g.vjust * (b.ymax - b.ymin)) = (g.anchor r).2 := by
  refine ⟨_, _, _, gridDraw_ok h, samePicture_moved _ _ _, ?_, ?_⟩
  · rw [hj, hx]; ring
  · rw [vj, hy]; ring

/-- The same in any case (nothing is assumed about the bounding box): the origin of the page, which
is the top left corner of the area that has been laid out, is at `x`, `y`. -/
theorem C70_origin_partial {X : Externals} {n : Nat} {r : Region} {g : HtmlGrob} {out : Released}
    (h : g.Renders X n r out) (hj : g.hjust = 0) (vj : g.vjust = 1) :
    ∃ gs, X.gridDraw n r g = .ok gs ∧
      SamePicture (g.anchor r).1 (g.anchor r).2 (out.grobs.filterMap id) gs := by
  refine ⟨_, gridDraw_ok h, ?_⟩
  rw [hj, vj]
  simpa using samePicture_moved (g.anchor r).1 (g.anchor r).2 (out.grobs.filterMap id)

/-- `hjust` and `vjust` of a text have no effect on how it is laid out, and neither have `x` and
`y`: grobs that differ only in these show the same picture, moved. -/
theorem C70_same_picture {X : Externals} {n : Nat} {r : Region} {g : HtmlGrob} {gs : List Grob}
    (h : X.gridDraw n r g = .ok gs) (x y : RUnit) (hjust vjust : ℚ) :
    ∃ dx dy gs', X.gridDraw n r { g with x := x, y := y, hjust := hjust, vjust := vjust } = .ok gs' ∧
      SamePicture dx dy gs gs' := by
  have hr : ∃ out, g.Renders X n r out := by
    unfold Externals.gridDraw Externals.makeContext at h
    simp only [bind, Except.bind] at h
    split at h
    · cases h
    · rename_i g' hg
      split at hg
      · cases hg
      · rename_i out ho
        refine ⟨out, ?_⟩
        unfold HtmlGrob.Renders
        rw [← currentWidth_eq, ← currentHeight_eq]
        exact ho
  obtain ⟨out, hr⟩ := hr
  have e := gridDraw_ok hr
  rw [h] at e
  cases e
  have hr' : HtmlGrob.Renders X n r { g with x := x, y := y, hjust := hjust, vjust := vjust } out := hr
  have m : ∀ (a b c d : ℚ) (k : Grob), (k.moved a b).moved (c - a) (d - b) = k.moved c d := by
    intro a b c d k
    cases k <;> simp [Grob.moved, ← add_assoc]
  have c : ∀ (a b c d : ℚ) (ks : List Grob), ∃ dx dy,
      (Except.ok (ks.map (Grob.moved c d)) : Except Panic (List Grob)) =
        .ok ((ks.map (Grob.moved a b)).map (Grob.moved dx dy)) := by
    intro a b c d ks
    refine ⟨c - a, d - b, ?_⟩
    rw [List.map_map]
    exact congrArg _ (List.map_congr_left fun k _ => (m _ _ _ _ k).symm)
  rw [gridDraw_ok hr']
  obtain ⟨dx, dy, e⟩ := c _ _ _ _ (out.grobs.filterMap id)
  rw [e]
  exact ⟨dx, dy, _, rfl, samePicture_moved _ _ _⟩

/-! ## Arguments -/

/-- Missing texts are rendered as empty texts, a number for `x`, `y`, `width` or `height` means
the number in `default.units`, and an `x` or `y` that is `NULL` is taken from the justification:
the edge or corner of the viewport that belongs to it. -/
theorem C70_arguments (text : List (Option ByteArray)) (x y width height : Option RArg)
    (hjust vjust : ℚ) (css : List ByteArray) (default : ℚ → RUnit) (vp : List Vp) (r : Region) :
    htmlGrob (text.map fun t => some (t.getD ⟨#[]⟩)) x y width height hjust vjust css default vp =
      htmlGrob text x y width height hjust vjust css default vp ∧
    (∀ v, htmlGrob text (some (.number v)) y width height hjust vjust css default vp =
      htmlGrob text (some (.unit (default v))) y width height hjust vjust css default vp) ∧
    (∀ v, htmlGrob text x (some (.number v)) width height hjust vjust css default vp =
      htmlGrob text x (some (.unit (default v))) width height hjust vjust css default vp) ∧
    (∀ v, htmlGrob text x y (some (.number v)) height hjust vjust css default vp =
      htmlGrob text x y (some (.unit (default v))) height hjust vjust css default vp) ∧
    (∀ v, htmlGrob text x y width (some (.number v)) hjust vjust css default vp =
      htmlGrob text x y width (some (.unit (default v))) hjust vjust css default vp) ∧
    (htmlGrob text none none width height hjust vjust css default vp).anchor r =
      ((r.pushAll vp).left + hjust * (r.pushAll vp).width,
       (r.pushAll vp).bottom + vjust * (r.pushAll vp).height) := by
  refine ⟨?_, fun _ => rfl, fun _ => rfl, fun _ => rfl, fun _ => rfl, ?_⟩
  · simp [htmlGrob]
  · simp [htmlGrob, HtmlGrob.anchor, withUnit, RUnit.inch]

/-- only the first text is rendered -/
theorem C70_first_text {X : Externals} {n : Nat} {r : Region} (g : HtmlGrob) (t : ByteArray)
    (ts : List ByteArray) : X.gridDraw n r { g with text := t :: ts } =
      X.gridDraw n r { g with text := [t] } := by
  unfold Externals.gridDraw Externals.makeContext
  have e : ∀ css w h, X.renderMarkdown n (t :: ts) css w h = X.renderMarkdown n [t] css w h := by
    intro css w h
    cases css <;> rfl
  simp only [bind, Except.bind, e]
  cases X.renderMarkdown n [t] g.css (currentWidth r g.vp g.width) (currentHeight r g.vp g.height) with
  | error p => rfl
  | ok out => obtain ⟨gs, b⟩ := out; cases b <;> rfl

/-! ## Examples -/

/-- a text of two lines without a given size, in the middle of the page -/
def middleGrob (hjust vjust : ℚ) : HtmlGrob :=
  htmlGrob [some ⟨#[0x61]⟩] (some (.number (1/2))) (some (.number (1/2))) none none hjust vjust
    [⟨#[]⟩] (fun v => ⟨v, 0⟩) []

/-- labels with their locations -/
def labelsAt (gs : Except Panic (List Grob)) : Option (List (String × ℚ × ℚ)) :=
  match gs with
  | .ok gs => some (gs.filterMap fun | .text l x y _ _ _ => some (l, x, y) | _ => none)
  | .error _ => none

/-- a page -/
def letterPage : Region := ⟨0, 0, 8, 10⟩

/-- by default the text hangs below the middle of the page -/
example : labelsAt ((opsExternals plainOps).gridDraw 40 letterPage (middleGrob 0 1)) =
    some [("a", 4, 583 / 120), ("b", 4, 559 / 120)] := by decide +kernel

/-- with `hjust = 1`, `vjust = 0` it is not even on the page -/
example : labelsAt ((opsExternals plainOps).gridDraw 40 letterPage (middleGrob 1 0)) =
    some [("a", -4, -617 / 120), ("b", -4, -641 / 120)] := by decide +kernel

/-- the reported size is the size of the text -/
example : ((opsExternals plainOps).makeContext 40 letterPage (middleGrob 0 1)).toOption.map
      (fun g => (g.widthDetails, g.heightDetails)) = some (8, 5 / 12) := by decide +kernel

/-- the first of the grobs -/
def firstY (gs : Except Panic (List Grob)) : Option ℚ :=
  match gs with
  | .ok (.text _ _ y _ _ _ :: _) => some y
  | _ => none

theorem C70_full_false : ¬ C70_full := by
  intro h
  have hb : ((opsExternals plainOps).renderMarkdown 40 [⟨#[0x61]⟩] [⟨#[]⟩] 8 10).toOption.map
      (fun r => (r.bbox, firstY (.ok (r.grobs.filterMap id)))) =
      some (some ⟨0, -5/12, 8, 0⟩, some (-17/120)) := by decide +kernel
  have hy : firstY ((opsExternals plainOps).gridDraw 40 letterPage (middleGrob 0 0)) =
      some (-617/120) := by decide +kernel
  cases hr : (opsExternals plainOps).renderMarkdown 40 [⟨#[0x61]⟩] [⟨#[]⟩] 8 10 with
  | error p => rw [hr] at hb; simp [Except.toOption] at hb
  | ok out =>
    rw [hr] at hb
    simp only [Except.toOption, Option.map_some, Option.some.injEq, Prod.mk.injEq] at hb
    have hren : (middleGrob 0 0).Renders (opsExternals plainOps) 40 letterPage out := hr
    obtain ⟨dx, dy, gs, e, hs, -, e2⟩ := h _ _ _ _ _ _ hren hb.1
    rw [e] at hy
    obtain ⟨hb1, hb2⟩ := hb
    have hdy : dy + (-5/12 + 0 * (0 - -5/12)) = 0 + (1/2 * 10 + 0) := e2
    cases hg : out.grobs.filterMap id with
    | nil => rw [hg] at hb2; simp [firstY] at hb2
    | cons k ks =>
      rw [hg] at hb2 hs
      cases k with
      | text l x y hj vj gp =>
        cases hs with
        | cons h1 _ =>
          cases h1 with
          | text hx hdy' =>
            simp only [firstY, Option.some.injEq] at hb2 hy
            rw [hb2, hy] at hdy'
            norm_num at hdy hdy'
            linarith
      | rect => simp [firstY] at hb2
      | lines => simp [firstY] at hb2

end Sinab
