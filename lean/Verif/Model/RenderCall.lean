import Verif.Model.Markdown

/-! `C_render_markdown` called from R, with R's memory and arguments of any type. -/

namespace Sinab

open RM

/-- how a C function comes back to R: with a value, or through an R error, which leaves it in the middle
(R restores the protection stack itself) -/
inductive RBack where
  | value (v : RVal)
  | raised
  deriving DecidableEq, Repr

/-- the object behind a value; `none` for `R_NilValue`, symbols, functions and environments -/
def RM.look (v : RVal) : RM (Option RObj) :=
  match v with
  | .ref _ => do return some (← access v)
  | _ => return none

/-- `xlength` -/
def xlength (v : RVal) : RM Nat := do
  match ← look v with
  | some o =>
    match o.kind with
    | .real xs => return xs.length
    | .strs | .vec | .list | .lang => return o.slots.length
    | _ => return 1
  | none => return if v = .nul then 0 else 1

/-- `REAL`: the numbers of a vector of type double; an R error (`none`) for values of other types -/
def realData (v : RVal) : RM (Option (List ℚ)) := do
  match ← look v with
  | some ⟨.real xs, _, _⟩ => return some xs
  | _ => return none

/-- `Rf_translateCharUTF8(STRING_ELT(v, 0))`: the first element of a character vector that has elements; an R error
for values of other types -/
noncomputable def firstString (v : RVal) : RM (Option (List UInt8)) := do
  match ← look v with
  | some ⟨.str s, _, _⟩ => do
    gc []
    let _ ← access v
    return some s.toUTF8.toList
  | some ⟨.strs, _, _⟩ => do
    let e ← getElt v 0
    return some (← translateChar e)
  | _ => return none

/-- the calls of a trace on the device at `p`: the panic that ended it, if any (compare `RDev.perform`) -/
noncomputable def performTrace (p : Nat) : List DrawCall → Option Panic → RM (Option Panic)
  | [], e => pure e
  | c :: cs, e =>
    match c.ccall with
    | .ok k => do
      k.perform p
      performTrace p cs e
    | .error q => pure (some q)

/-- `sinab_test_renderer` (test.rs 11-37) on the device at `p`, compare `Externals.testRenderer`.  Failure means that
control does not return to C. -/
noncomputable def Externals.testRendererAt (X : Externals) (fuel : Nat) (p : Nat) (text css : ByteArray)
    (size : PVec2 Length) : RM Unit :=
  let start : Except Panic (Text × Text) := do
    let html ← match ← cstringToStr (some text) with
      | some s => X.markdown s
      | none => .ok []
    return (html, (← cstringToStr (some css)).getD [])
  match start with
  | .error q => fail q
  | .ok (html, css) => do
    let t := X.renderHtml fuel html css size
    match ← performTrace p t.calls t.panic with
    | none => pure ()
    | some q => if q.caught then pure () else fail q

/-- `C_render_markdown` (src/render_markdown.c 9-29).  `*w` and `*h` (24) read the first element of the vectors: with none
there, this reads outside of the object.  The arguments of the call in 20-25 are evaluated from left to right (C leaves the
order open). -/
noncomputable def Externals.cRenderMarkdown (X : Externals) (fuel : Nat) (text css width height : RVal) : RM RBack := do
  let p ← rdevNew 0
  match ← realData width with
  | none => return .raised
  | some ws =>
    match ← realData height with
    | none => return .raised
    | some hs =>
      let n ← xlength text
      let m ← xlength css
      if n ≥ 1 ∧ m ≥ 1 then
        match ← firstString text with
        | none => return .raised
        | some t =>
          match ← firstString css with
          | none => return .raised
          | some c =>
            match ws, hs with
            | w :: _, h :: _ =>
              X.testRendererAt fuel p ⟨t.toArray⟩ ⟨c.toArray⟩ ⟨w * 96, h * 96⟩
              return .value (← rdevRelease p)
            | _, _ => fail .vectorBounds
      else return .value (← rdevRelease p)

end Sinab
