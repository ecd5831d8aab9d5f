import Verif.Model.Derive

/-! What the derived functions should do, in terms of the declaration of the type. -/

namespace Sinab.Derive

/-- a capital letter followed by small ones -/
def CapWord (w : Text) : Prop := ∃ c cs, w = c :: cs ∧ 'A' ≤ c ∧ c ≤ 'Z' ∧ ∀ x ∈ cs, 'a' ≤ x ∧ x ≤ 'z'

/-- small letters -/
def SmallWord (w : Text) : Prop := w ≠ [] ∧ ∀ x ∈ w, 'a' ≤ x ∧ x ≤ 'z'

/-- `TextBottom` is spelled `text-bottom`: the words that start with a capital letter, in small letters, with hyphens
between them -/
def Spelled (name keyword : Text) : Prop :=
  ∃ ws : List Text, name = ws.flatten ∧ (∀ w ∈ ws.tail, CapWord w) ∧
    (∀ w, ws.head? = some w → CapWord w ∨ SmallWord w) ∧
    keyword = List.intercalate ['-'] (ws.map fun w => w.map Char.toLower)

/-- there are only letters in a name -/
def Letters (name : Text) : Prop := ∀ c ∈ name, ('a' ≤ c ∧ c ≤ 'z') ∨ ('A' ≤ c ∧ c ≤ 'Z')

/-- declarations of types for which `#[derive(Parse)]` is possible: enums whose variants have one field without name or
none, and structs without fields; names of what has no field consist of letters -/
inductive Readable : Input → Prop where
  | enum {n ps vs} : (∀ v ∈ vs, (v.fields = .unit ∧ Letters v.name.toList) ∨ ∃ t, v.fields = .unnamed [t]) →
      Readable ⟨n, ps, .enum vs⟩
  | struct {n ps} : Letters n.toList → Readable ⟨n, ps, .struct .unit⟩

/-- how a text is read as a value of a declared type: by the first variant with a field whose type can be read, else by
the first variant without field that is spelled like the next word -/
inductive Reads {V : Type} (parseOf : String → P V) : Input → List Tok → Value V → List Tok → Prop where
  | field {n ps pre name t post ts x rest} :
      (∀ n' t', Variant.mk n' (.unnamed [t']) ∈ pre → parseOf t' ts = none) → parseOf t ts = some (x, rest) →
      Reads parseOf ⟨n, ps, .enum (pre ++ ⟨name, .unnamed [t]⟩ :: post)⟩ ts ⟨some name, [("0", x)]⟩ rest
  | keyword {n ps pre name post s rest} :
      (∀ n' t', Variant.mk n' (.unnamed [t']) ∈ pre ++ ⟨name, .unit⟩ :: post → parseOf t' (.ident s :: rest) = none) →
      (∀ n', Variant.mk n' .unit ∈ pre → ¬ Spelled n'.toList s) → Spelled name.toList s →
      Reads parseOf ⟨n, ps, .enum (pre ++ ⟨name, .unit⟩ :: post)⟩ (.ident s :: rest) ⟨some name, []⟩ rest
  | struct {n ps s rest} : Spelled n.toList s →
      Reads parseOf ⟨n, ps, .struct .unit⟩ (.ident s :: rest) ⟨none, []⟩ rest

/-- the fields of a constructor of a type (`none`: of a struct) -/
inductive HasCtor : Input → Option String → Fields → Prop where
  | struct {n ps fs} : HasCtor ⟨n, ps, .struct fs⟩ none fs
  | variant {n ps vs name fs} : Variant.mk name fs ∈ vs → HasCtor ⟨n, ps, .enum vs⟩ (some name) fs

/-- the names of the fields, in order -/
def Fields.Named : Fields → List String → Prop
  | .unit, ns => ns = []
  | .unnamed types, ns => ns = (List.range types.length).map toString
  | .named fields, ns => ns = fields.map Prod.fst

/-- the type of a field -/
inductive Fields.TypeOf : Fields → String → String → Prop where
  | unnamed {types : List String} {k : Nat} {t : String} : types[k]? = some t → TypeOf (.unnamed types) (toString k) t
  | named {fields : List (String × String)} {n t : String} : (n, t) ∈ fields → TypeOf (.named fields) n t

end Sinab.Derive
