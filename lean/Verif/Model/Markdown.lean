import Verif.Model.RHeap
import Verif.Model.Render

/-! `md_to_html()`: src/markdown.c and markdown.rs, with the memory of R and the strings that
Rust hands over to C. -/

namespace Sinab

open RM

/-- The strings that Rust has handed over to C by `CString::into_raw` (utils/c_helper.rs 18)
and that have not been given back.  Contents without the final NUL. -/
structure CStrs where
  strs : Nat → Option (List UInt8)
  next : Nat

/-- computations that use both memories -/
abbrev MM := StateT CStrs RM

/-- `str_to_cstring` (utils/c_helper.rs 16-21); `none` is the null pointer -/
def strToCstring (s : Text) : MM (Option Nat) := fun c =>
  if s.contains '\x00' then pure (none, c)
  else pure (some c.next, { c with
    strs := fun p => if p = c.next then some (String.ofList s).toUTF8.toList else c.strs p
    next := c.next + 1 })

/-- `sinab_free_cstring` (utils/c_helper.rs 25-33): a string must not be freed twice -/
def freeCstring : Option Nat → MM Unit
  | none => pure ()
  | some p => fun c =>
    match c.strs p with
    | some _ => pure ((), { c with strs := fun q => if q = p then none else c.strs q })
    | none => fail .useAfterFree

/-- C code reads a string; the null pointer makes the process crash -/
def readCstring : Option Nat → MM (List UInt8)
  | none => fun _ => fail .abort
  | some p => fun c =>
    match c.strs p with
    | some s => pure (s, c)
    | none => fail .useAfterFree

/-- `Rf_translateCharUTF8` of a string: may allocate; the string must still be there when the
result is used, which may be the contents of the string itself.  An R string contains no NUL. -/
noncomputable def translateChar (v : RVal) : RM (List UInt8) := do
  let _ ← access v
  gc []
  let o ← access v
  match o.kind with
  | .chr s => pure s
  | _ => fail .assertion

/-- `Rf_mkCharCE`.  R may return an existing string with the same contents, which is not
protected either: the same as a new one. -/
noncomputable def mkCharCE (s : Option Nat) : MM RVal := do
  let bytes ← readCstring s
  alloc (.chr bytes) []

/-- failures of Rust code -/
def rust {α : Type} (x : Except Panic α) : MM α := fun c h =>
  match x with
  | .ok a => .ok ((a, c), h)
  | .error p => .error p

/-- `sinab_md_to_html` (markdown.rs 8-16) -/
def sinabMdToHtml (X : Externals) (text : List UInt8) : MM (Option Nat) := do
  let s ← rust (cstringToStr (some ⟨text.toArray⟩))
  let html ← rust (match s with
    | some s => X.markdown s
    | none => .ok [])
  strToCstring html

/-- the loop (src/markdown.c 12-18), for the elements `i, …, i + n - 1` -/
noncomputable def mdLoop (X : Externals) (str out : RVal) : (i n : Nat) → MM Unit
  | _, 0 => pure ()
  | i, n + 1 => do
    let e ← getElt str i
    let t ← translateChar e
    let s ← sinabMdToHtml X t
    let rs ← mkCharCE s
    protect rs
    freeCstring s
    setElt out i rs
    unprotect 1
    mdLoop X str out (i + 1) n

/-- `C_md_to_html` (src/markdown.c 7-22).  The argument is a character vector
(`as.character`, R/md-to-html.R 12), protected by R during `.Call`. -/
noncomputable def mdToHtml (X : Externals) (str : RVal) : MM RVal := do
  let o ← access str
  let n := o.slots.length
  let out ← allocVec .strs n
  protect out
  mdLoop X str out 0 n
  unprotect 1
  return out

end Sinab
