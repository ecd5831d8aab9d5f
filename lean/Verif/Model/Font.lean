import Verif.Model.Device

/-! `graphics_engine/font.rs` and the R-side unit handling. -/

namespace Sinab

/-- Result of `rdev_string_metrics` (src/render_device.c, through R's
`graphics engine`): ascent, descent, width in inches.  This is an arbitrary
parameter of the model. -/
structure RMetrics where
  ascent : ℚ
  descent : ℚ
  width : ℚ
  deriving DecidableEq, Repr

/-- `StringMetrics` (graphics_engine/font.rs 15-19), px. -/
structure StringMetrics where
  ascent : Length
  descent : Length
  width : Length
  deriving DecidableEq, Repr

/-- `rdev_string_metrics` as a parameter: depends only on label and context. -/
abbrev Metrics := GCtx → String → RMetrics

/-- `FontImpl::string_metrics_internal` (graphics_engine/font.rs 35-57) -/
def stringMetricsInternal (R : Metrics) (label : String) (gc : GCtx) :
    Except Panic StringMetrics := do
  let label ← cstring label
  let m := R gc label
  return { ascent := 96 * m.ascent, descent := 96 * m.descent, width := 96 * m.width }

/-- `FontImpl` (graphics_engine/font.rs 23-32); the fields `name, style,
weight` repeat what is in `gc`. -/
structure Font where
  size : Length
  ascent : Length
  descent : Length
  spaceAdvanceWidth : Length
  gc : GCtx
  deriving DecidableEq, Repr

/-- `FontImpl::new` (graphics_engine/font.rs 59-78) -/
def Font.new (R : Metrics) (name : String) (style : FontStyle) (weight : FontWeight)
    (size : Length) : Except Panic Font := do
  let gc ← fontGCtx name style weight size
  let m1 ← stringMetricsInternal R "gjpqyQ" gc
  let m2 ← stringMetricsInternal R " " gc
  return { size := size, ascent := m1.ascent, descent := m1.descent,
           spaceAdvanceWidth := m2.width, gc := gc }

/-- `string_metrics` (graphics_engine/font.rs 81-83) -/
def Font.stringMetrics (R : Metrics) (f : Font) (label : String) : Except Panic StringMetrics :=
  stringMetricsInternal R label f.gc

/-- `get_ex` (graphics_engine/font.rs 96) -/
def Font.ex (f : Font) : Length := f.size * (1 / 2)

/-- `calculate_linespacing` (graphics_engine/font.rs 103-105) -/
def Font.calculateLinespacing (f : Font) (lineheight : ℚ) : Length := f.size * lineheight

/-- Page size passed to Rust by `C_render_markdown` (src/render_markdown.c 24). -/
def pageSizePx (widthIn heightIn : ℚ) : Length × Length := (widthIn * 96, heightIn * 96)

end Sinab
