import Verif.Model.RHeap

/-! Specification vocabulary for the memory of R: what a value stands for. -/

namespace Sinab

/-- the contents of an R value, with everything it refers to -/
inductive RTm where
  | nul
  | perm (name : String)
  | node (kind : RKind) (slots attrs : List (String × RTm))

mutual

/-- The value `v` stands for the term `t`: all objects it refers to are there (none has been
reclaimed) and have the contents described by `t`. -/
inductive Denotes (objs : Nat → Option RObj) : RVal → RTm → Prop
  | nul : Denotes objs .nul .nul
  | perm (s) : Denotes objs (.perm s) (.perm s)
  | ref {r o ts as} : objs r = some o → o.kind.frozen = true → DenotesAll objs o.slots ts →
      DenotesAll objs o.attrs as → Denotes objs (.ref r) (.node o.kind ts as)

/-- `Denotes` for lists of named values -/
inductive DenotesAll (objs : Nat → Option RObj) : List (String × RVal) → List (String × RTm) → Prop
  | nil : DenotesAll objs [] []
  | cons {n v t vs ts} : Denotes objs v t → DenotesAll objs vs ts →
      DenotesAll objs ((n, v) :: vs) ((n, t) :: ts)

end

/-- `Denotes` for an object that may be under construction -/
inductive Top (objs : Nat → Option RObj) : RVal → RTm → Prop
  | nul : Top objs .nul .nul
  | perm (s) : Top objs (.perm s) (.perm s)
  | ref {r o ts as} : objs r = some o → DenotesAll objs o.slots ts → DenotesAll objs o.attrs as →
      Top objs (.ref r) (.node o.kind ts as)

/-- a string -/
def RTm.str (s : String) : RTm := .node (.str s) [] []

/-- an integer -/
def RTm.int (n : Int) : RTm := .node (.int n) [] []

/-- numbers -/
def RTm.reals (xs : List ℚ) : RTm := .node (.real xs) [] []

/-- a number -/
def RTm.real (x : ℚ) : RTm := .reals [x]

/-- the value of the call `fn(args)` -/
def RTm.call (fn : String) (args : List (String × RTm)) : RTm := .node (.res fn) args []

/-- `unit(xs, units = "inches")` -/
def RTm.inches (xs : List ℚ) : RTm := .call "unit" [("", .reals xs), ("units", .str "inches")]

/-- the `lty` argument -/
def Lty.term : Lty → RTm
  | .code n => .int n
  | .pattern s => .str s

/-- `gpar(…)` -/
def Gpar.term (g : Gpar) : RTm :=
  .call "gpar" [("col", .str g.col), ("fill", .str g.fill), ("fontfamily", .str g.fontfamily),
    ("fontface", .int g.fontface), ("fontsize", .real g.fontsize),
    ("lineheight", .real g.lineheight), ("lty", g.lty.term), ("lwd", .real g.lwd),
    ("lineend", .str g.lineend)]

/-- the R call that makes a grob -/
def Grob.term : Grob → RTm
  | .text label x y hjust vjust gp =>
    .call "textGrob" [("label", .str label), ("x", .inches [x]), ("y", .inches [y]),
      ("hjust", .real hjust), ("vjust", .real vjust), ("gp", gp.term)]
  | .rect x y width height hjust vjust gp =>
    .call "rectGrob" [("x", .inches [x]), ("y", .inches [y]), ("width", .inches [width]),
      ("height", .inches [height]), ("hjust", .real hjust), ("vjust", .real vjust),
      ("gp", gp.term)]
  | .lines x y gp => .call "linesGrob" [("x", .inches x), ("y", .inches y), ("gp", gp.term)]

/-- the list of class `gList` with its attributes -/
def Released.term (r : Released) : RTm :=
  .node .vec (r.grobs.map fun g => ("", match g with | some g => g.term | none => .nul))
    ((match r.bbox with
      | some b => [("bbox", .node .list [("xmin", .real b.xmin), ("ymin", .real b.ymin),
          ("xmax", .real b.xmax), ("ymax", .real b.ymax)] [])]
      | none => []) ++ [("class", .str "gList")])

/-- a call of the interface, as in the model of the device without memory -/
def CCall.on (d : RDev) : CCall → Except Panic RDev
  | .text label x y gc => d.drawText label x y gc
  | .rect x y w h gc => d.drawRect x y w h gc
  | .line pts gc => d.drawLine pts gc
  | .bbox a b c e => .ok (d.recordBBox a b c e)

/-- calls one after the other -/
def onAll (d : RDev) : List CCall → Except Panic RDev
  | [] => .ok d
  | c :: cs => do
    let d ← c.on d
    onAll d cs

/-- nothing is stored at addresses that have not been handed out yet -/
structure RHeap.Fresh (h : RHeap) : Prop where
  objs : ∀ r, h.next ≤ r → h.objs r = none
  devs : ∀ p, h.nextDev ≤ p → h.devs p = none

end Sinab
