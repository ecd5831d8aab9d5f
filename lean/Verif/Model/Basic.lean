import Mathlib.Data.Rat.Defs

/-!
Common conventions of the model.

* `f32`/`f64` quantities are exact rationals (no rounding, NaN, infinities).
* Aborts (`panic!`, failed `assert!`, `unwrap` on `None`, out-of-bounds access,
  C buffer overflow, R errors) are values of `Panic`; functions that can abort
  return `Except Panic _`.
-/

namespace Sinab

/-- Reasons for which the code can abort.  One constructor per source of abort
that is modelled; each use cites the place in `/repo`. -/
inductive Panic where
  /-- `SET_VECTOR_ELT`/`VECTOR_ELT` outside an R vector (src/render_device.c). -/
  | vectorBounds
  /-- write past the end of a C `char[]` (src/gcontext.c). -/
  | bufferOverflow
  /-- `CString::new(..).unwrap()` on a string with an interior NUL. -/
  | interiorNul
  /-- access to a released reference-counted cell (cannot happen in Rust; the model shows it). -/
  | useAfterFree
  /-- `unimplemented!()` -/
  | unimplemented
  /-- `unreachable!()` -/
  | unreachable
  /-- failed `assert!`/`assert_eq!`/`debug_assert!` -/
  | assertion
  /-- `panic!("…")`, `expect`/`unwrap` on `None`/`Err` -/
  | panicked
  /-- slice index out of bounds -/
  | indexBounds
  /-- `RefCell::borrow_mut` while already borrowed -/
  | borrow
  /-- a second panic while unwinding from a first one: Rust ends the process, which
      `catch_unwind` cannot prevent -/
  | abort
  /-- a loop of the code did not finish within the given number of steps
      (only for functions that are modelled with fuel) -/
  | outOfFuel
  deriving DecidableEq, Repr

/-- CSS `Length` (src/sinab/src/style/values/length.rs 15-18): a number of px.
Simplification: `f32` is replaced by exact rationals. -/
abbrev Length := ℚ

end Sinab
