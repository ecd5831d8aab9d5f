import Verif.Model.JumpTable
import Verif.Spec.Boxes
import Mathlib.Tactic.NormNum
import Mathlib.Data.List.Forall2

/-! Methods found by a table of functions are those of a `match` (C76). -/

namespace Sinab.Jump

/-! ## Vocabulary -/

/-- an alignment is a power of two, and the size of a type is a multiple of it -/
def FieldType.Valid (f : FieldType) : Prop := (∃ n, f.align = 2 ^ n) ∧ f.align ∣ f.size

/-- what the compiler requires of an enum: different names, not more variants than
discriminants; and types have valid layouts -/
structure EnumDef.Accepted (d : EnumDef) : Prop where
  names : (d.variants.map Variant.name).Nodup
  fits : d.variants.length ≤ d.tag.capacity
  valid : ∀ v ∈ d.variants, ∀ f ∈ v.fields, f.Valid

/-- the bytes of values of the fields' types -/
def Typed (fs : List FieldType) (vs : List (List UInt8)) : Prop :=
  List.Forall₂ (fun (f : FieldType) (v : List UInt8) => v.length = f.size) fs vs

/-- what a `match` means: the block of the arm that names the variant -/
def matchOn {Args R : Type} (arms : List (Arm Args R)) (name : String) (vs : List (List UInt8))
    (args : Args) : Option R :=
  (arms.find? fun a => a.variant = name).map fun a => a.block vs args

/-! ## Numbers in memory -/

theorem lowFirst_length (n v : Nat) : (lowFirst n v).length = n := by
  induction n generalizing v with
  | zero => rfl
  | succ n ih => simp [lowFirst, ih]

theorem fromLowFirst_lowFirst (n v : Nat) (h : v < 256 ^ n) : fromLowFirst (lowFirst n v) = v := by
  induction n generalizing v with
  | zero => simp at h; subst h; rfl
  | succ n ih =>
    rw [lowFirst, fromLowFirst, ih (v / 256) (by rw [Nat.div_lt_iff_lt_mul (by norm_num)]; rw [pow_succ] at h; exact h)]
    have : (UInt8.ofNat (v % 256)).toNat = v % 256 := by
      rw [UInt8.toNat_ofNat']
      omega
    rw [this]
    omega

theorem encode_length (en : Endian) (n v : Nat) : (en.encode n v).length = n := by
  cases en <;> simp [Endian.encode, lowFirst_length]

theorem decode_encode (en : Endian) {n v : Nat} (h : v < 256 ^ n) : en.decode (en.encode n v) = v := by
  cases en <;> simp [Endian.encode, Endian.decode, fromLowFirst_lowFirst n v h]

theorem capacity_le (r : IntRepr) : r.capacity ≤ 256 ^ r.size := by
  unfold IntRepr.capacity
  split
  · exact Nat.div_le_self _ _
  · exact le_rfl

theorem asUsize_small {r : IntRepr} {k : Nat} (h : k < r.capacity) : r.asUsize k = k := by
  unfold IntRepr.asUsize
  unfold IntRepr.capacity at h
  cases hs : r.signed
  · simp
  · rw [hs] at h
    simp only [if_true] at h
    rw [if_neg]
    simp only [Bool.true_and, decide_eq_true_eq, not_le]
    exact h

/-! ## Memory -/

theorem read_length (m : Memory) (o n : Nat) : (m.read o n).length = n := by simp [Memory.read]

theorem read_write_same (m : Memory) (o : Nat) (bs : List UInt8) :
    (m.write o bs).read o bs.length = bs := by
  apply List.ext_getElem
  · simp [Memory.read]
  · intro i h1 h2
    simp [Memory.read, Memory.write, h2]

theorem read_write_before (m : Memory) {o o' n : Nat} (bs : List UInt8) (h : o + n ≤ o') :
    (m.write o' bs).read o n = m.read o n := by
  unfold Memory.read
  refine List.map_congr_left fun i hi => ?_
  rw [List.mem_range] at hi
  unfold Memory.write
  rw [if_neg (by omega)]

theorem le_roundUp (n : Nat) {a : Nat} (h : 0 < a) : n ≤ roundUp n a := by
  unfold roundUp
  have h1 := Nat.div_add_mod (n + a - 1) a
  have h2 := Nat.mod_lt (n + a - 1) h
  rw [mul_comm] at h1
  omega

theorem dvd_roundUp (n a : Nat) : a ∣ roundUp n a := Nat.dvd_mul_left _ _

theorem FieldType.Valid.pos {f : FieldType} (h : f.Valid) : 0 < f.align := by
  obtain ⟨⟨n, hn⟩, -⟩ := h
  rw [hn]
  exact Nat.two_pow_pos n

/-- storing fields leaves everything before them -/
theorem storeFields_before {fs : List FieldType} {start : Nat} (hf : ∀ f ∈ fs, f.Valid) :
    ∀ {vs : List (List UInt8)} {m : Memory} {o n : Nat}, o + n ≤ start →
      (storeFields m (offsets start fs) vs).read o n = m.read o n := by
  induction fs generalizing start with
  | nil => intros; simp [offsets, storeFields]
  | cons f fs ih =>
    intro vs m o n h
    cases vs with
    | nil => rfl
    | cons v vs =>
      have h0 := le_roundUp start (hf f (by simp)).pos
      rw [offsets, storeFields, ih (fun g hg => hf g (List.mem_cons_of_mem _ hg)) (by omega),
        read_write_before _ _ (by omega)]

/-- stored fields are read back -/
theorem storeFields_read {fs : List FieldType} {vs : List (List UInt8)} (ht : Typed fs vs) :
    ∀ {start : Nat} {m : Memory}, (∀ f ∈ fs, f.Valid) →
      List.zipWith (fun o (f : FieldType) => (storeFields m (offsets start fs) vs).read o f.size)
        (offsets start fs) fs = vs := by
  induction ht with
  | nil => intros; rfl
  | @cons f v fs vs h ht ih =>
    intro start m hf
    have hf' : ∀ g ∈ fs, g.Valid := fun g hg => hf g (List.mem_cons_of_mem _ hg)
    simp only [offsets, storeFields, List.zipWith_cons_cons]
    rw [ih hf', storeFields_before hf' le_rfl, ← h, read_write_same]

/-- **C76**: a value that was stored has its fields at the places where the closure of its
variant looks for them, whatever was in memory before. -/
theorem C76_fields (d : EnumDef) (en : Endian) (k : Nat) {v : Variant} {vs : List (List UInt8)}
    (hv : ∀ f ∈ v.fields, f.Valid) (ht : Typed v.fields vs) (m : Memory) {Args R : Type}
    (block : List (List UInt8) → Args → R) (args : Args) :
    closure d.tag v block (d.store en k v.fields vs m) args = block vs args := by
  unfold closure EnumDef.store
  rw [storeFields_read ht hv]

/-- the tag that is read is the number of the variant -/
theorem store_tag (d : EnumDef) (en : Endian) {k : Nat} {fs : List FieldType}
    (hk : k < d.tag.capacity) (hf : ∀ f ∈ fs, f.Valid) (vs : List (List UInt8)) (m : Memory) :
    d.tag.asUsize (en.decode ((d.store en k fs vs m).read 0 d.tag.size)) = k := by
  unfold EnumDef.store
  rw [storeFields_before hf (by omega)]
  have := read_write_same m 0 (en.encode d.tag.size k)
  rw [encode_length] at this
  rw [this, decode_encode en (lt_of_lt_of_le hk (capacity_le _)), asUsize_small hk]

/-! ## The table -/

/-- the arms of a `match` name exactly the variants of the enum, in their order, with all fields -/
def Exact {Args R : Type} (enumName : String) (vs : List Variant) (as : List (Arm Args R)) : Prop :=
  List.Forall₂ (fun (v : Variant) (a : Arm Args R) => a.enumName = enumName ∧ a.variant = v.name ∧
    a.fieldNames.length = v.fields.length) vs as

theorem closuresTable_iff {Args R : Type} (enumName : String) (tag : IntRepr) :
    ∀ (vs : List Variant) (as : List (Arm Args R)) (prev table : List (Memory → Args → R)),
      closuresTable enumName tag vs as prev = some table ↔
        Exact enumName vs as ∧
          table = prev ++ List.zipWith (fun v (a : Arm Args R) => closure tag v a.block) vs as := by
  intro vs
  induction vs with
  | nil =>
    intro as prev table
    cases as with
    | nil => simp [closuresTable, Exact, eq_comm]
    | cons a as => simp [closuresTable, Exact]
  | cons v vs ih =>
    intro as prev table
    cases as with
    | nil => simp [closuresTable, Exact]
    | cons a as =>
      unfold closuresTable
      by_cases h1 : a.enumName = enumName
      · by_cases h2 : a.variant = v.name
        · by_cases h3 : a.fieldNames.length = v.fields.length
          · rw [if_pos h1, if_pos h2, if_pos h3, ih]
            simp [Exact, h1, h2, h3]
          · rw [if_pos h1, if_pos h2, if_neg h3]
            simp [Exact, h3]
        · rw [if_pos h1, if_neg h2]
          simp [Exact, h2]
      · rw [if_neg h1]
        simp [Exact, h1]

/-- **C76**: a method compiles if and only if its arms name all variants, each once, in the order
of the enum, and bind all fields. -/
theorem C76_compiles {Args R : Type} (enumName : String) (d : EnumDef) (as : List (Arm Args R)) :
    (∃ table, closuresTable enumName d.tag d.variants as [] = some table) ↔
      Exact enumName d.variants as := by
  constructor
  · rintro ⟨t, h⟩
    exact ((closuresTable_iff ..).1 h).1
  · intro h
    exact ⟨_, (closuresTable_iff ..).2 ⟨h, rfl⟩⟩

theorem find_arm {Args R : Type} {enumName : String} : ∀ {vs : List Variant} {as : List (Arm Args R)},
    Exact enumName vs as → (vs.map Variant.name).Nodup → ∀ {k : Nat} {v : Variant}, vs[k]? = some v →
      ∃ a, as[k]? = some a ∧ (as.find? fun a => a.variant = v.name) = some a := by
  intro vs
  induction vs with
  | nil => intro as h hn k v hk; simp at hk
  | cons w vs ih =>
    intro as h hn k v hk
    cases h with
    | @cons _ a _ as h hs =>
      rw [List.map_cons, List.nodup_cons] at hn
      cases k with
      | zero =>
        simp only [List.getElem?_cons_zero, Option.some.injEq] at hk
        subst hk
        exact ⟨a, rfl, by simp [h.2.1]⟩
      | succ k =>
        simp only [List.getElem?_cons_succ] at hk
        obtain ⟨b, h1, h2⟩ := ih hs hn.2 hk
        refine ⟨b, by simpa using h1, ?_⟩
        rw [List.find?_cons_of_neg]
        · exact h2
        · simp only [decide_eq_true_eq]
          intro e
          apply hn.1
          rw [← h.2.1, e]
          exact List.mem_map_of_mem (List.mem_of_getElem? hk)

/-- **C76**: calling a method of a stored value is the `match` on its variant: the block of the arm
with this name is run with the fields of the value. -/
theorem C76_dispatch {Args R : Type} {enumName : String} {d : EnumDef} (hd : d.Accepted)
    {as : List (Arm Args R)} {table : List (Memory → Args → R)}
    (hc : closuresTable enumName d.tag d.variants as [] = some table) (en : Endian) {k : Nat}
    {v : Variant} (hk : d.variants[k]? = some v) {vs : List (List UInt8)} (ht : Typed v.fields vs)
    (m : Memory) (args : Args) :
    ∃ r, method d.tag en table (d.store en k v.fields vs m) args = .ok r ∧
      matchOn as v.name vs args = some r := by
  obtain ⟨he, rfl⟩ := (closuresTable_iff ..).1 hc
  have hv : ∀ f ∈ v.fields, f.Valid := hd.valid v (List.mem_of_getElem? hk)
  have hlt : k < d.variants.length := (List.getElem?_eq_some_iff.1 hk).1
  obtain ⟨a, h1, h2⟩ := find_arm he hd.names hk
  refine ⟨a.block vs args, ?_, ?_⟩
  · unfold method
    rw [store_tag d en (lt_of_lt_of_le hlt hd.fits) hv]
    simp only [List.nil_append, List.getElem?_zipWith, hk, h1]
    rw [C76_fields d en k hv ht]
  · rw [matchOn, h2, Option.map_some]

/-! ## Access to memory -/

theorem offsets_end {fs : List FieldType} : ∀ {start : Nat}, (∀ f ∈ fs, f.Valid) →
    start ≤ endOf start fs ∧ ∀ p ∈ (offsets start fs).zip fs, p.2.align ∣ p.1 ∧ start ≤ p.1 ∧
      p.1 + p.2.size ≤ endOf start fs := by
  induction fs with
  | nil => intro start _; simp [offsets, endOf]
  | cons f fs ih =>
    intro start h
    have h0 := le_roundUp start (h f (by simp)).pos
    obtain ⟨h1, h2⟩ := ih (start := roundUp start f.align + f.size)
      fun g hg => h g (List.mem_cons_of_mem _ hg)
    refine ⟨by rw [endOf]; omega, fun p hp => ?_⟩
    rw [offsets, List.zip_cons_cons, List.mem_cons] at hp
    rcases hp with rfl | hp
    · exact ⟨dvd_roundUp _ _, h0, h1⟩
    · obtain ⟨k1, k2, k3⟩ := h2 p hp
      exact ⟨k1, by omega, k3⟩

theorem le_foldr_max {l : List Nat} {b x : Nat} (h : x ∈ l ∨ x = b) : x ≤ l.foldr max b := by
  induction l with
  | nil =>
    rcases h with h | rfl
    · cases h
    · exact le_rfl
  | cons a l ih =>
    rw [List.foldr_cons]
    simp only [List.mem_cons] at h
    rcases h with (rfl | h) | h
    · exact le_max_left _ _
    · exact (ih (.inl h)).trans (le_max_right _ _)
    · exact (ih (.inr h)).trans (le_max_right _ _)

theorem two_pow_dvd_max {l : List Nat} {b : Nat} (hb : ∃ n, b = 2 ^ n) (hl : ∀ x ∈ l, ∃ n, x = 2 ^ n) :
    (∃ n, l.foldr max b = 2 ^ n) := by
  induction l with
  | nil => exact hb
  | cons a l ih =>
    obtain ⟨n, hn⟩ := hl a (by simp)
    obtain ⟨k, hk⟩ := ih fun x hx => hl x (List.mem_cons_of_mem _ hx)
    rw [List.foldr_cons]
    rcases max_choice a (l.foldr max b) with h | h
    · exact ⟨n, by rw [h, hn]⟩
    · exact ⟨k, by rw [h, hk]⟩

theorem dvd_of_two_pow {a b : Nat} (ha : ∃ n, a = 2 ^ n) (hb : ∃ n, b = 2 ^ n) (h : a ≤ b) : a ∣ b := by
  obtain ⟨n, rfl⟩ := ha
  obtain ⟨k, rfl⟩ := hb
  exact Nat.pow_dvd_pow 2 ((Nat.pow_le_pow_iff_right (by norm_num)).1 h)

theorem tag_pow (r : IntRepr) : ∃ n, r.size = 2 ^ n := by
  cases r
  · exact ⟨0, rfl⟩
  · exact ⟨1, rfl⟩
  · exact ⟨2, rfl⟩
  · exact ⟨3, rfl⟩
  · exact ⟨0, rfl⟩
  · exact ⟨1, rfl⟩
  · exact ⟨2, rfl⟩
  · exact ⟨3, rfl⟩

/-- **C76**: a method reads only bytes of the value, at addresses that have the alignment of what is
read (for a value that is placed as its own alignment requires), and never the tag as
part of a field. -/
theorem C76_in_bounds {d : EnumDef} (hd : d.Accepted) {v : Variant} (hv : v ∈ d.variants)
    {address : Nat} (ha : d.align ∣ address) :
    d.tag.size ≤ d.size ∧ d.tag.size ∣ address ∧
    ∀ p ∈ (offsets d.tag.size v.fields).zip v.fields,
      d.tag.size ≤ p.1 ∧ p.1 + p.2.size ≤ d.size ∧ p.2.align ∣ address + p.1 := by
  have hp : ∃ n, d.align = 2 ^ n := by
    refine two_pow_dvd_max (tag_pow d.tag) fun x hx => ?_
    obtain ⟨w, hw, hx⟩ := List.mem_flatMap.1 hx
    obtain ⟨f, hf, rfl⟩ := List.mem_map.1 hx
    exact (hd.valid w hw f hf).1
  have h0 : 0 < d.align := by
    obtain ⟨n, hn⟩ := hp
    rw [hn]
    exact Nat.two_pow_pos n
  have hle := le_roundUp ((d.variants.map fun v => endOf d.tag.size v.fields).foldr max d.tag.size) h0
  refine ⟨(le_foldr_max (.inr rfl)).trans hle, Nat.dvd_trans (dvd_of_two_pow (tag_pow d.tag) hp
    (le_foldr_max (.inr rfl))) ha, fun p hpm => ?_⟩
  obtain ⟨k1, k2, k3⟩ := (offsets_end (hd.valid v hv)).2 p hpm
  have hf : p.2 ∈ v.fields := (List.of_mem_zip hpm).2
  have hal : p.2.align ∣ d.align := by
    refine dvd_of_two_pow (hd.valid v hv _ hf).1 hp (le_foldr_max (.inl ?_))
    exact List.mem_flatMap.2 ⟨v, hv, List.mem_map_of_mem hf⟩
  refine ⟨k2, k3.trans ((le_foldr_max (.inl ?_)).trans hle), Nat.dvd_add (Nat.dvd_trans hal ha) k1⟩
  exact List.mem_map_of_mem (f := fun v => endOf d.tag.size v.fields) hv

/-! ## The enums of the properties -/

theorem longhandNames_all : longhandNames.map Prod.snd = Longhand.all := rfl

theorem longhandId_accepted : longhandId.Accepted where
  names := by decide +kernel
  fits := by decide +kernel
  valid := by
    intro v hv
    obtain ⟨p, -, rfl⟩ := List.mem_map.1 hv
    simp

/-- **C76** for longhands: in memory, the identifier of a property is its number; the CSS-wide
keywords are applied to the property that is named. -/
theorem C76_longhand {k : Nat} {name : String} {p : Longhand} (hk : longhandNames[k]? = some (name, p))
    (en : Endian) (m : Memory) (kw : CssWideKeyword) (computed inherited : Style) :
    ∃ table, closuresTable "LonghandId" .u8 longhandId.variants cssWideArms [] = some table ∧
      method .u8 en table (longhandId.store en k [] [] m) (kw, computed, inherited) =
        .ok (p.cascadeCssWide kw computed inherited) ∧
      isEarlyOf en (longhandId.store en k [] [] m) = .ok p.isEarly := by
  have hv : longhandId.variants[k]? = some ⟨name, []⟩ := by
    simp [longhandId, hk]
  have ha : (cssWideArms.find? fun a => a.variant = name).map (fun a => a.block [] (kw, computed, inherited)) =
      some (p.cascadeCssWide kw computed inherited) := by
    have h : ∀ q ∈ longhandNames, (longhandNames.find? fun a => a.1 = q.1) = some q := by decide +kernel
    rw [cssWideArms, List.find?_map, Option.map_map]
    have := h _ (List.mem_of_getElem? hk)
    simp only [Function.comp_def] at this ⊢
    rw [this]
    rfl
  have hc : ∃ table, closuresTable "LonghandId" longhandId.tag longhandId.variants cssWideArms [] = some table := by
    rw [C76_compiles, Exact, longhandId, cssWideArms, List.forall₂_map_left_iff, List.forall₂_map_right_iff]
    exact List.forall₂_same.2 fun _ _ => ⟨rfl, rfl, rfl⟩
  obtain ⟨table, hc⟩ := hc
  obtain ⟨r, h1, h2⟩ := C76_dispatch longhandId_accepted hc en hv (vs := []) .nil m (kw, computed, inherited)
  refine ⟨table, hc, ?_, ?_⟩
  · rw [matchOn] at h2
    rw [ha] at h2
    cases h2
    exact h1
  · have he : earlyTable = longhandNames.map fun q => q.2.isEarly := rfl
    have hlt : k < longhandId.tag.capacity :=
      lt_of_lt_of_le (List.getElem?_eq_some_iff.1 hv).1 longhandId_accepted.fits
    have ht : IntRepr.u8.asUsize (en.decode ((longhandId.store en k [] [] m).read 0 IntRepr.u8.size)) = k :=
      store_tag longhandId en hlt (by simp) [] m
    rw [isEarlyOf, ht, he, List.getElem?_map, hk]
    rfl

/-- **C76** for declarations: whatever the layouts of the values, there are enough discriminants for
the declarations of all longhands and the CSS-wide keywords, so `C76_dispatch` and
`C76_in_bounds` hold for them. -/
theorem C76_declarations {value : Longhand → FieldType} {keyword : FieldType}
    (hv : ∀ p, (value p).Valid) (hk : keyword.Valid) : (longhandDeclaration value keyword).Accepted where
  names := by
    have : (longhandDeclaration value keyword).variants.map Variant.name =
        longhandNames.map Prod.fst ++ ["CssWide"] := by
      simp [longhandDeclaration, Function.comp_def]
    rw [this]
    decide +kernel
  fits := by
    have : (longhandDeclaration value keyword).variants.length = longhandNames.length + 1 := by
      simp [longhandDeclaration]
    rw [this]
    show longhandNames.length + 1 ≤ IntRepr.u8.capacity
    decide +kernel
  valid := by
    intro v hv' f hf
    simp only [longhandDeclaration, List.mem_append, List.mem_map, List.mem_singleton] at hv'
    rcases hv' with ⟨p, -, rfl⟩ | rfl
    · simp only [List.mem_singleton] at hf
      subst hf
      exact hv _
    · simp only [List.mem_cons, List.not_mem_nil, or_false] at hf
      rcases hf with rfl | rfl
      · exact ⟨⟨0, by decide +kernel⟩, by decide +kernel⟩
      · exact hk

/-! ## Examples -/

/-- the enum of the test (utils/tagged_union_with_jump_tables.rs 190-196): `V1(u8, String)`,
`V2(&'static str)`, `V3` -/
def testEnum : EnumDef := ⟨.u16, [⟨"V1", [⟨1, 1⟩, ⟨24, 8⟩]⟩, ⟨"V2", [⟨16, 8⟩]⟩, ⟨"V3", []⟩]⟩

/-- a method that gives the variant's number, its fields and the argument -/
def testArms : List (Arm Nat (Nat × List (List UInt8) × Nat)) :=
  [⟨"Foo", "V1", ["u", "s"], fun vs x => (1, vs, x)⟩, ⟨"Foo", "V2", ["s"], fun vs x => (2, vs, x)⟩,
   ⟨"Foo", "V3", [], fun vs x => (3, vs, x)⟩]

theorem testEnum_accepted : testEnum.Accepted where
  names := by decide +kernel
  fits := by decide +kernel
  valid := by
    simp only [testEnum, List.mem_cons, List.not_mem_nil, or_false, forall_eq_or_imp, forall_eq]
    exact ⟨⟨⟨⟨0, rfl⟩, by decide⟩, ⟨3, rfl⟩, by decide⟩, ⟨⟨3, rfl⟩, by decide⟩, by simp⟩

/-- `V1` has its byte behind the tag and its string at the next multiple of 8; the enum takes 32 bytes -/
example : offsets testEnum.tag.size [⟨1, 1⟩, ⟨24, 8⟩] = [2, 8] ∧ testEnum.size = 32 ∧ testEnum.align = 8 ∧
    longhandId.size = 1 ∧ longhandId.align = 1 := by
  decide +kernel

/-- arms in another order, for another enum, or without all fields do not compile -/
example : (closuresTable "Foo" .u16 testEnum.variants testArms []).isSome = true ∧
    (closuresTable "Foo" .u16 testEnum.variants (testArms.reverse) []).isSome = false ∧
    (closuresTable "Foo" .u16 testEnum.variants (testArms.take 2) []).isSome = false ∧
    (closuresTable "Bar" .u16 testEnum.variants testArms []).isSome = false := by
  decide +kernel

/-- `Foo::V2("…").get(5)` in memory that was full of ones, on a machine with the high byte first -/
example (table) (h : closuresTable "Foo" testEnum.tag testEnum.variants testArms [] = some table)
    (s : List UInt8) (hs : s.length = 16) :
    method .u16 .big table (testEnum.store .big 1 [⟨16, 8⟩] [s] fun _ => 255) 5 = .ok (2, [s], 5) := by
  obtain ⟨r, h1, h2⟩ := C76_dispatch testEnum_accepted h .big (k := 1) (v := ⟨"V2", [⟨16, 8⟩]⟩) rfl
    (vs := [s]) (.cons hs .nil) (fun _ => 255) 5
  have : r = (2, [s], 5) := by
    rw [matchOn] at h2
    simpa [testArms] using h2.symm
  rw [← this]
  exact h1

/-- the identifier of `display` is number 11 -/
example (m : Memory) (computed inherited : Style) :
    ∃ table, closuresTable "LonghandId" .u8 longhandId.variants cssWideArms [] = some table ∧
      method .u8 .little table (longhandId.store .little 11 [] [] m) (.unset, computed, inherited) =
        .ok (Longhand.display.cascadeCssWide .unset computed inherited) ∧
      isEarlyOf .little (longhandId.store .little 11 [] [] m) = .ok false :=
  C76_longhand (k := 11) (name := "display") rfl .little m .unset computed inherited

/-- a value of layout 4 bytes, aligned to 4 -/
example : (longhandDeclaration (fun _ => ⟨4, 4⟩) ⟨1, 1⟩).Accepted ∧
    (longhandDeclaration (fun _ => ⟨4, 4⟩) ⟨1, 1⟩).size = 8 :=
  ⟨C76_declarations (fun _ => ⟨⟨2, rfl⟩, by decide⟩) ⟨⟨0, rfl⟩, by decide⟩, by decide +kernel⟩

end Sinab.Jump
