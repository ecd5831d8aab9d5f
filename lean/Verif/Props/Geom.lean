import Verif.Model.Geom
import Mathlib.Data.List.Perm.Basic
import Mathlib.Tactic.Linarith
import Mathlib.Tactic.Ring

/-! # C07 physical and flow-relative geometry, C08 box-model rectangles -/

namespace Sinab

/-! ## C07 -/

/-- The four physical sides. -/
inductive Side where
  | top | right | bottom | left
  deriving DecidableEq, Repr

def Side.opposite : Side → Side
  | .top => .bottom
  | .bottom => .top
  | .left => .right
  | .right => .left

/-- value on a given side -/
def PSides.at {α : Type} (s : PSides α) : Side → α
  | .top => s.top
  | .right => s.right
  | .bottom => s.bottom
  | .left => s.left

/-- The side where the first line lies (CSS Writing Modes, block flow direction). -/
def blockStartSide : WritingMode → Side
  | .horizontalTb => .top
  | .verticalRl | .sidewaysRl => .right
  | .verticalLr | .sidewaysLr => .left

/-- The line-left side (CSS Writing Modes, abstract-to-physical mapping). -/
def lineLeftSide : WritingMode → Side
  | .horizontalTb => .left
  | .verticalRl | .verticalLr | .sidewaysRl => .top
  | .sidewaysLr => .bottom

/-- Inline start is line-left for `ltr` and line-right for `rtl`. -/
def inlineStartSide (m : Mode) : Side :=
  match m.2 with
  | .ltr => lineLeftSide m.1
  | .rtl => (lineLeftSide m.1).opposite

/-- **C07** size conversions are inverse to each other in every mode, and swap
the components exactly for the vertical modes. -/
theorem C07_size_roundtrip {α : Type} (v : PVec2 α) (w : Vec2 α) (m : Mode) :
    (v.sizeToFlowRelative m).sizeToPhysical m = v ∧
    (w.sizeToPhysical m).sizeToFlowRelative m = w ∧
    (v.sizeToFlowRelative m).inline = (if m.1 = .horizontalTb then v.x else v.y) ∧
    (v.sizeToFlowRelative m).block = (if m.1 = .horizontalTb then v.y else v.x) := by
  obtain ⟨a, d⟩ := m
  cases a <;>
    simp [PVec2.sizeToFlowRelative, Vec2.sizeToPhysical]

/-- **C07** every flow-relative side is the physical side CSS prescribes. -/
theorem C07_sides {α : Type} (s : PSides α) (m : Mode) :
    (s.toFlowRelative m).blockStart = s.at (blockStartSide m.1) ∧
    (s.toFlowRelative m).blockEnd = s.at (blockStartSide m.1).opposite ∧
    (s.toFlowRelative m).inlineStart = s.at (inlineStartSide m) ∧
    (s.toFlowRelative m).inlineEnd = s.at (inlineStartSide m).opposite := by
  obtain ⟨a, d⟩ := m
  cases a <;> cases d <;> exact ⟨rfl, rfl, rfl, rfl⟩

/-- **C07** no side is lost or duplicated: the four flow-relative values are a
permutation of the four physical ones, and the conversion is injective. -/
theorem C07_sides_perm {α : Type} (s : PSides α) (m : Mode) :
    [(s.toFlowRelative m).inlineStart, (s.toFlowRelative m).inlineEnd,
     (s.toFlowRelative m).blockStart, (s.toFlowRelative m).blockEnd].Perm
      [s.top, s.right, s.bottom, s.left] := by
  obtain ⟨a, d⟩ := m
  have key : ∀ l : List Side, l.Perm [.top, .right, .bottom, .left] →
      (l.map s.at).Perm [s.top, s.right, s.bottom, s.left] := fun l h => h.map s.at
  cases a <;> cases d
  · exact key [.left, .right, .top, .bottom] (by decide)
  · exact key [.right, .left, .top, .bottom] (by decide)
  · exact key [.top, .bottom, .right, .left] (by decide)
  · exact key [.bottom, .top, .right, .left] (by decide)
  · exact key [.top, .bottom, .left, .right] (by decide)
  · exact key [.bottom, .top, .left, .right] (by decide)
  · exact key [.top, .bottom, .right, .left] (by decide)
  · exact key [.bottom, .top, .right, .left] (by decide)
  · exact key [.bottom, .top, .left, .right] (by decide)
  · exact key [.top, .bottom, .left, .right] (by decide)

theorem C07_sides_injective {α : Type} (s t : PSides α) (m : Mode)
    (h : s.toFlowRelative m = t.toFlowRelative m) : s = t := by
  obtain ⟨hb, hbe, hi, hie⟩ := C07_sides s m
  obtain ⟨hb', hbe', hi', hie'⟩ := C07_sides t m
  rw [h] at hb hbe hi hie
  rw [hb] at hb'; rw [hbe] at hbe'; rw [hi] at hi'; rw [hie] at hie'
  obtain ⟨a, d⟩ := m
  cases a <;> cases d <;>
    simp only [blockStartSide, inlineStartSide, lineLeftSide, Side.opposite, PSides.at] at * <;>
    ext <;> assumption

/-- **C07** the writing mode the program uses: block-start/inline-end/block-end/
inline-start are top/right/bottom/left, and rectangles keep their numbers. -/
theorem C07_horizontal_ltr {α : Type} (s : PSides α) (r : Rect α) :
    s.toFlowRelative (.horizontalTb, .ltr) =
      { blockStart := s.top, inlineEnd := s.right, blockEnd := s.bottom, inlineStart := s.left } ∧
    r.toPhysical (.horizontalTb, .ltr) = .ok
      { topLeft := ⟨r.startCorner.inline, r.startCorner.block⟩
        size := ⟨r.size.inline, r.size.block⟩ } := ⟨rfl, rfl⟩

example : (PSides.mk 1 2 3 4).toFlowRelative (.verticalRl, .rtl) =
    (Sides.mk 3 1 4 2 : Sides Nat) := rfl

/-! ## C08 -/

/-- edges of a rectangle: inline start, inline end, block start, block end -/
def Rect.edges (r : Rect Length) : Sides Length :=
  ⟨r.startCorner.inline, r.startCorner.inline + r.size.inline,
   r.startCorner.block, r.startCorner.block + r.size.block⟩

/-- the point `(i, b)` lies in the rectangle (closed) -/
def Rect.Has (r : Rect Length) (i b : Length) : Prop :=
  r.edges.inlineStart ≤ i ∧ i ≤ r.edges.inlineEnd ∧ r.edges.blockStart ≤ b ∧ b ≤ r.edges.blockEnd

/-- all four widths are non-negative -/
def Sides.NonNeg (s : Sides Length) : Prop :=
  0 ≤ s.inlineStart ∧ 0 ≤ s.inlineEnd ∧ 0 ≤ s.blockStart ∧ 0 ≤ s.blockEnd

/-- `outer` is `inner` with every edge moved outwards by the width of that side. -/
def GrownBy (inner outer : Rect Length) (s : Sides Length) : Prop :=
  outer.edges.inlineStart = inner.edges.inlineStart - s.inlineStart ∧
  outer.edges.inlineEnd = inner.edges.inlineEnd + s.inlineEnd ∧
  outer.edges.blockStart = inner.edges.blockStart - s.blockStart ∧
  outer.edges.blockEnd = inner.edges.blockEnd + s.blockEnd

theorem inflate_grownBy (r : Rect Length) (s : Sides Length) : GrownBy r (r.inflate s) s := by
  simp only [GrownBy, Rect.edges, Rect.inflate, Sides.inlineSum, Sides.blockSum]
  refine ⟨trivial, ?_, trivial, ?_⟩ <;> ring

theorem GrownBy.contains {r r' : Rect Length} {s : Sides Length} (h : GrownBy r r' s)
    (hs : s.NonNeg) {i b : Length} (hi : r.Has i b) : r'.Has i b := by
  obtain ⟨h1, h2, h3, h4⟩ := h
  obtain ⟨g1, g2, g3, g4⟩ := hs
  obtain ⟨k1, k2, k3, k4⟩ := hi
  exact ⟨by linarith, by linarith, by linarith, by linarith⟩

/-- **C08** each box edge is the previous one moved out by exactly the width of
that side, and the size of the margin box is content plus both sides of
padding, border and margin. -/
theorem C08_box_edges (b : BoxGeom) :
    GrownBy b.contentRect b.paddingRect b.padding ∧
    GrownBy b.paddingRect b.borderRect b.border ∧
    GrownBy b.borderRect b.marginRect b.margin ∧
    b.marginRect.size.inline = b.contentRect.size.inline +
      (b.padding.inlineStart + b.padding.inlineEnd) + (b.border.inlineStart + b.border.inlineEnd) +
      (b.margin.inlineStart + b.margin.inlineEnd) ∧
    b.marginRect.size.block = b.contentRect.size.block +
      (b.padding.blockStart + b.padding.blockEnd) + (b.border.blockStart + b.border.blockEnd) +
      (b.margin.blockStart + b.margin.blockEnd) :=
  ⟨inflate_grownBy _ _, inflate_grownBy _ _, inflate_grownBy _ _, rfl, rfl⟩

/-- **C08** for non-negative widths the boxes nest. -/
theorem C08_boxes_nest (b : BoxGeom) (i j : Length) :
    (b.padding.NonNeg → b.contentRect.Has i j → b.paddingRect.Has i j) ∧
    (b.border.NonNeg → b.paddingRect.Has i j → b.borderRect.Has i j) ∧
    (b.margin.NonNeg → b.borderRect.Has i j → b.marginRect.Has i j) :=
  ⟨fun h => (inflate_grownBy _ _).contains h, fun h => (inflate_grownBy _ _).contains h,
   fun h => (inflate_grownBy _ _).contains h⟩

example : let b : BoxGeom := ⟨⟨⟨10, 20⟩, ⟨100, 50⟩⟩, ⟨1, 2, 3, 4⟩, ⟨1, 1, 1, 1⟩, ⟨5, 5, 0, 0⟩⟩
    b.padding.NonNeg ∧ b.border.NonNeg ∧ b.margin.NonNeg ∧ b.contentRect.Has 10 30 ∧
    b.marginRect = ⟨⟨3, 16⟩, ⟨115, 59⟩⟩ := by
  refine ⟨⟨?_, ?_, ?_, ?_⟩, ⟨?_, ?_, ?_, ?_⟩, ⟨?_, ?_, ?_, ?_⟩, ⟨?_, ?_, ?_, ?_⟩, ?_⟩ <;>
    decide +kernel

end Sinab
