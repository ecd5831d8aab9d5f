import Verif.Model.Values

/-!
The procedural macros of sinab-derive/src/style.rs and sinab-derive/src/generic.rs: functions from the declaration of a
type to the code of functions, run by the compiler; their panics are compile errors.  The code they produce is
represented by what distinguishes it (`ParseFn`, `FromFn`, `Variants`), and `run` is the execution of this code.

Left out: spans, and the `impl … where …` frame for types with parameters (`derive_trait`, style.rs 205-228), which
adds the same trait as a bound for each parameter.  `SpecifiedAsComputed` (style.rs 1-27) produces three functions that
clone their argument. -/

namespace Sinab.Derive

/-- `syn::Fields`; types are represented by their text -/
inductive Fields where
  | unit
  | unnamed (types : List String)
  | named (fields : List (String × String))
  deriving DecidableEq, Repr

/-- `syn::Variant` -/
structure Variant where
  name : String
  fields : Fields
  deriving DecidableEq, Repr

/-- `syn::Data` -/
inductive Data where
  | enum (variants : List Variant)
  | struct (fields : Fields)
  | union
  deriving DecidableEq, Repr

/-- `syn::DeriveInput` -/
structure Input where
  ident : String
  typeParams : List String
  data : Data
  deriving DecidableEq, Repr

/-- a value of a declared type: the variant (`none` for a struct) and the contents of the fields; the fields of a tuple
are called `0`, `1`, … -/
structure Value (V : Type) where
  ctor : Option String
  args : List (String × V)
  deriving DecidableEq, Repr

/-- loop of `camel_case_to_kebab_case` (sinab-derive/src/style.rs 187-201) -/
def kebabFrom : (out : Text) → Text → Except Panic Text
  | out, [] => .ok out
  | out, c :: cs =>
    if c.isLower then kebabFrom (out ++ [c]) cs
    else if c.isUpper then
      kebabFrom ((if out.isEmpty then out else out ++ ['-']) ++ [c.toLower]) cs
    else .error .panicked

/-- `camel_case_to_kebab_case` (sinab-derive/src/style.rs 185-203) -/
def kebab (s : String) : Except Panic Text := kebabFrom [] s.toList

/-- what `derive_parse` puts into the generated function: `single_unnamed_field_variants` with the type of the field
(which is inferred by the compiler), `keywords` and `unit_variants` (sinab-derive/src/style.rs 118-120) -/
structure ParseFn where
  fields : List (Option String × String)
  keywords : List (Text × Option String)
  deriving DecidableEq, Repr

/-- loop of `derive_parse` over the variants (sinab-derive/src/style.rs 124-137) -/
def parseVariants : ParseFn → List Variant → Except Panic ParseFn
  | f, [] => .ok f
  | f, v :: vs =>
    match v.fields with
    | .unit => do
      let k ← kebab v.name
      parseVariants { f with keywords := f.keywords ++ [(k, some v.name)] } vs
    | .unnamed [type] => parseVariants { f with fields := f.fields ++ [(some v.name, type)] } vs
    | _ => .error .unimplemented

/-- `derive_parse` (sinab-derive/src/style.rs 113-183) -/
def parse (i : Input) : Except Panic ParseFn :=
  match i.data with
  | .enum vs => parseVariants ⟨[], []⟩ vs
  | .struct .unit => do
    let k ← kebab i.ident
    return ⟨[], [(k, none)]⟩
  | _ => .error .panicked

/-- the generated function `parse` (sinab-derive/src/style.rs 149-179).  `parseOf` is the implementation of `Parse` for
the types of the fields. -/
def ParseFn.run {V : Type} (parseOf : String → P V) (f : ParseFn) : P (Value V) := fun ts =>
  match f.fields.findSome? fun c => (parseOf c.2 ts).map fun r => (Value.mk c.1 [("0", r.1)], r.2) with
  | some r => some r
  | none =>
    if f.keywords.isEmpty then none
    else
      match ts with
      | .ident s :: rest => (f.keywords.find? fun k => k.1 = s).map fun k => (⟨k.2, []⟩, rest)
      | _ => none

/-- names and types of the fields; the names `f0`, `f1`, … of the patterns for tuples (sinab-derive/src/style.rs 48-54)
stand for the fields `0`, `1`, … -/
def Fields.list : Fields → List (String × String)
  | .unit => []
  | .unnamed types => types.zipIdx.map fun t => (toString t.2, t.1)
  | .named fields => fields

/-- what `derive_from_specified` puts into the generated function: the name of the type of the argument with its
arguments, and the arms of the `match` -/
structure FromFn where
  specifiedName : String
  specifiedArgs : List String
  arms : List (Option String × List (String × String))
  deriving DecidableEq, Repr

/-- `derive_from_specified` (sinab-derive/src/style.rs 29-111) -/
def fromSpecified (i : Input) : Except Panic FromFn := do
  let (n, as) :=
    if i.typeParams.isEmpty then ("Specified" ++ i.ident, [])
    else (i.ident, i.typeParams.map fun p => p ++ "::SpecifiedValue")
  match i.data with
  | .struct fields => return ⟨n, as, [(none, fields.list)]⟩
  | .enum vs => return ⟨n, as, vs.map fun v => (some v.name, v.fields.list)⟩
  | .union => .error .unimplemented

/-- one arm: the fields are bound by the pattern, and converted (sinab-derive/src/style.rs 43-77) -/
def armFields {V W : Type} (conv : String → V → W) (args : List (String × V)) :
    List (String × String) → Option (List (String × W))
  | [] => some []
  | (n, type) :: fs => do
    let x ← args.lookup n
    let r ← armFields conv args fs
    return (n, conv type x) :: r

/-- the generated function `from_specified` (sinab-derive/src/style.rs 97-108).  `conv` is the implementation of
`FromSpecified` for the types of the fields.  `none`: no arm fits; the compiler refuses functions with such a `match`. -/
def FromFn.run {V W : Type} (conv : String → V → W) (f : FromFn) (v : Value V) : Option (Value W) :=
  match f.arms.find? fun a => a.1 = v.ctor with
  | some a => (armFields conv v.args a.2).map fun args => ⟨v.ctor, args⟩
  | none => none

/-- the implementations of `From` that `derive_from_variants` generates: type of the argument, and variant -/
def variantImpls : List Variant → List (String × String)
  | [] => []
  | v :: vs =>
    match v.fields with
    | .unnamed [type] => (type, v.name) :: variantImpls vs
    | _ => variantImpls vs

/-- `derive_from_variants` (sinab-derive/src/generic.rs 4-34) -/
def fromVariants (i : Input) : Except Panic (List (String × String)) :=
  let impls := match i.data with
    | .enum vs => variantImpls vs
    | _ => []
  if impls.isEmpty then .error .panicked else .ok impls

/-- the compiler accepts implementations of one trait for one type if no two are the same -/
def coherent (impls : List (String × String)) : Prop := (impls.map (·.1)).Nodup

/-- `x.into()`: the implementation for the type of `x` (sinab-derive/src/generic.rs 20-24) -/
def into {V : Type} (impls : List (String × String)) (type : String) (x : V) : Option (Value V) :=
  (impls.find? fun p => p.1 = type).map fun p => ⟨some p.2, [("0", x)]⟩

end Sinab.Derive
