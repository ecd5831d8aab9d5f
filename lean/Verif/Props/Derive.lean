import Verif.Spec.Derive
import Verif.Lemmas.ConstructGood

/-! The procedural macros (C85). -/

namespace Sinab.Derive

/-! ## Spelling -/

theorem isLower_iff (c : Char) : c.isLower = true ↔ 'a' ≤ c ∧ c ≤ 'z' := by
  simp [Char.isLower, Char.le_def, UInt32.le_iff_toNat_le]

theorem isUpper_iff (c : Char) : c.isUpper = true ↔ 'A' ≤ c ∧ c ≤ 'Z' := by
  simp [Char.isUpper, Char.le_def, UInt32.le_iff_toNat_le]

/-- what follows the first letter -/
def tailKebab : Text → Text
  | [] => []
  | c :: cs => if c.isLower then c :: tailKebab cs else '-' :: c.toLower :: tailKebab cs

theorem kebabFrom_ne {out : Text} (ho : out ≠ []) {cs : Text} (h : Letters cs) :
    kebabFrom out cs = .ok (out ++ tailKebab cs) := by
  induction cs generalizing out with
  | nil => simp [kebabFrom, tailKebab]
  | cons c cs ih =>
    have h' : Letters cs := fun x hx => h x (List.mem_cons_of_mem _ hx)
    rw [kebabFrom, tailKebab]
    by_cases hl : c.isLower
    · rw [if_pos hl, if_pos hl, ih (by simp) h']
      simp
    · have hu : c.isUpper := by
        rcases h c List.mem_cons_self with h1 | h1
        · exact absurd ((isLower_iff c).2 h1) hl
        · exact (isUpper_iff c).2 h1
      rw [if_neg hl, if_neg hl, if_pos hu, ih (by simp) h']
      have : out.isEmpty = false := by cases out <;> simp_all
      simp [this]

/-- the keyword for a name of letters -/
def kebabOf : Text → Text
  | [] => []
  | c :: cs => c.toLower :: tailKebab cs

theorem toLower_lower {c : Char} (h : c.isLower) : c.toLower = c := by
  have h' := (isLower_iff c).1 h
  have hu : ¬ (c.val ≥ 65 ∧ c.val ≤ 90) := by
    rintro ⟨-, h2⟩
    have h1 := h'.1
    rw [Char.le_def, UInt32.le_iff_toNat_le] at h1
    rw [UInt32.le_iff_toNat_le] at h2
    simp at h1 h2
    omega
  simp only [Char.toLower]
  split
  · rename_i hh; exact absurd hh hu
  · rfl

theorem kebab_letters {s : String} (h : Letters s.toList) : kebab s = .ok (kebabOf s.toList) := by
  unfold kebab
  cases hs : s.toList with
  | nil => rfl
  | cons c cs =>
    rw [hs] at h
    have h' : Letters cs := fun x hx => h x (List.mem_cons_of_mem _ hx)
    rw [kebabFrom]
    by_cases hl : c.isLower
    · rw [if_pos hl, kebabFrom_ne (by simp) h']
      simp [kebabOf, toLower_lower hl]
    · have hu : c.isUpper := by
        rcases h c List.mem_cons_self with h1 | h1
        · exact absurd ((isLower_iff c).2 h1) hl
        · exact (isUpper_iff c).2 h1
      rw [if_neg hl, if_pos hu]
      simp only [List.isEmpty_nil, if_true, List.nil_append]
      rw [kebabFrom_ne (by simp) h']
      simp [kebabOf]

theorem kebabFrom_error {out cs : Text} (h : ¬ Letters cs) : kebabFrom out cs = .error .panicked := by
  induction cs generalizing out with
  | nil => exact absurd (fun x hx => absurd hx List.not_mem_nil) h
  | cons c cs ih =>
    rw [kebabFrom]
    by_cases hl : c.isLower
    · rw [if_pos hl]
      refine ih fun hc => h fun x hx => ?_
      rcases List.mem_cons.1 hx with rfl | hx
      · exact .inl ((isLower_iff _).1 hl)
      · exact hc x hx
    · rw [if_neg hl]
      by_cases hu : c.isUpper
      · rw [if_pos hu]
        refine ih fun hc => h fun x hx => ?_
        rcases List.mem_cons.1 hx with rfl | hx
        · exact .inr ((isUpper_iff _).1 hu)
        · exact hc x hx
      · rw [if_neg hu]

theorem kebab_ok_iff (s : String) (k : Text) : kebab s = .ok k ↔ Letters s.toList ∧ k = kebabOf s.toList := by
  by_cases h : Letters s.toList
  · rw [kebab_letters h]
    constructor
    · intro e; cases e; exact ⟨h, rfl⟩
    · rintro ⟨-, rfl⟩; rfl
  · constructor
    · intro e
      rw [kebab, kebabFrom_error h] at e
      cases e
    · exact fun e => absurd e.1 h

theorem tailKebab_small {l : Text} (h : ∀ x ∈ l, 'a' ≤ x ∧ x ≤ 'z') (m : Text) :
    tailKebab (l ++ m) = l.map Char.toLower ++ tailKebab m := by
  induction l with
  | nil => rfl
  | cons c cs ih =>
    have hl := (isLower_iff c).2 (h c List.mem_cons_self)
    rw [List.cons_append, tailKebab, if_pos hl, ih fun x hx => h x (List.mem_cons_of_mem _ hx)]
    simp [toLower_lower hl]

theorem upper_not_lower {c : Char} (_ : 'A' ≤ c) (h2 : c ≤ 'Z') : ¬ c.isLower := by
  rw [isLower_iff]
  rintro ⟨h3, -⟩
  rw [Char.le_def, UInt32.le_iff_toNat_le] at h2 h3
  simp at h2 h3
  omega

theorem tailKebab_words {ws : List Text} (h : ∀ w ∈ ws, CapWord w) :
    tailKebab ws.flatten = (ws.map fun w => '-' :: w.map Char.toLower).flatten := by
  induction ws with
  | nil => rfl
  | cons w ws ih =>
    obtain ⟨c, cs, rfl, h1, h2, h3⟩ := h w List.mem_cons_self
    rw [List.flatten_cons, List.cons_append, tailKebab, if_neg (upper_not_lower h1 h2), tailKebab_small h3,
      ih fun x hx => h x (List.mem_cons_of_mem _ hx)]
    simp

theorem intercalate_eq (sep w : Text) (ws : List Text) :
    List.intercalate sep (w :: ws) = w ++ (ws.map fun w => sep ++ w).flatten := by
  induction ws generalizing w with
  | nil => simp [List.intercalate]
  | cons x ws ih =>
    have := ih x
    simp only [List.intercalate, List.intersperse_cons_cons, List.flatten_cons] at this ⊢
    rw [this]
    simp

theorem CapWord.letters {w : Text} (h : CapWord w) : Letters w := by
  obtain ⟨c, cs, rfl, h1, h2, h3⟩ := h
  intro x hx
  rcases List.mem_cons.1 hx with rfl | hx
  · exact .inr ⟨h1, h2⟩
  · exact .inl (h3 x hx)

theorem Letters.append {a b : Text} (h1 : Letters a) (h2 : Letters b) : Letters (a ++ b) := by
  intro x hx
  rcases List.mem_append.1 hx with h | h
  · exact h1 x h
  · exact h2 x h

theorem Letters.flatten {ws : List Text} (h : ∀ w ∈ ws, Letters w) : Letters ws.flatten := by
  intro x hx
  obtain ⟨w, hw, hx⟩ := List.mem_flatten.1 hx
  exact h w hw x hx

/-- every name of letters is a sequence of words -/
theorem words_exist (cs : Text) (h : Letters cs) : ∃ (l : Text) (ws : List Text), cs = l ++ ws.flatten ∧ (∀ x ∈ l, 'a' ≤ x ∧ x ≤ 'z') ∧
    ∀ w ∈ ws, CapWord w := by
  induction cs with
  | nil => exact ⟨[], [], rfl, by simp, by simp⟩
  | cons c cs ih =>
    obtain ⟨l, ws, e, h1, h2⟩ := ih fun x hx => h x (List.mem_cons_of_mem _ hx)
    rcases h c List.mem_cons_self with hc | hc
    · refine ⟨c :: l, ws, by simp [e], ?_, h2⟩
      intro x hx
      rcases List.mem_cons.1 hx with rfl | hx
      · exact hc
      · exact h1 x hx
    · refine ⟨[], (c :: l) :: ws, by simp [e], by simp, ?_⟩
      intro w hw
      rcases List.mem_cons.1 hw with rfl | hw
      · exact ⟨c, l, rfl, hc.1, hc.2, h1⟩
      · exact h2 w hw

theorem spelled_iff (name k : Text) : Spelled name k ↔ Letters name ∧ k = kebabOf name := by
  constructor
  · rintro ⟨ws, rfl, h1, h2, rfl⟩
    cases ws with
    | nil => exact ⟨fun x hx => absurd hx List.not_mem_nil, rfl⟩
    | cons w ws =>
      have hw := h2 w rfl
      have hws : ∀ v ∈ ws, CapWord v := h1
      have hlw : Letters w := by
        rcases hw with hw | hw
        · exact hw.letters
        · exact fun x hx => .inl (hw.2 x hx)
      refine ⟨?_, ?_⟩
      · rw [List.flatten_cons]
        exact hlw.append (Letters.flatten fun v hv => (hws v hv).letters)
      · rw [List.map_cons, intercalate_eq, List.flatten_cons, List.map_map]
        have : ∃ c cs, w = c :: cs ∧ ∀ x ∈ cs, 'a' ≤ x ∧ x ≤ 'z' := by
          rcases hw with ⟨c, cs, rfl, -, -, h3⟩ | ⟨hne, h3⟩
          · exact ⟨c, cs, rfl, h3⟩
          · cases w with
            | nil => exact absurd rfl hne
            | cons c cs => exact ⟨c, cs, rfl, fun x hx => h3 x (List.mem_cons_of_mem _ hx)⟩
        obtain ⟨c, cs, rfl, h3⟩ := this
        rw [List.cons_append, kebabOf, tailKebab_small h3, tailKebab_words hws]
        simp [Function.comp_def]
  · rintro ⟨h, rfl⟩
    cases name with
    | nil => exact ⟨[], rfl, by simp, by simp, rfl⟩
    | cons c cs =>
      obtain ⟨l, ws, rfl, h1, h2⟩ := words_exist cs fun x hx => h x (List.mem_cons_of_mem _ hx)
      refine ⟨(c :: l) :: ws, by simp, h2, ?_, ?_⟩
      · intro w hw
        cases hw
        rcases h c List.mem_cons_self with hc | hc
        · right
          refine ⟨by simp, ?_⟩
          intro x hx
          rcases List.mem_cons.1 hx with rfl | hx
          · exact hc
          · exact h1 x hx
        · exact .inl ⟨c, l, rfl, hc.1, hc.2, h1⟩
      · rw [List.map_cons, intercalate_eq, kebabOf, tailKebab_small h1, tailKebab_words h2]
        simp [Function.comp_def]

/-- C85: the keyword for a name. -/
theorem C85_spelling (s : String) (k : Text) : kebab s = .ok k ↔ Spelled s.toList k := by
  rw [kebab_ok_iff, spelled_iff]

example : kebab "TextBottom" = .ok "text-bottom".toList ∧ kebab "HorizontalTb" = .ok "horizontal-tb".toList ∧
    kebab "X2" = .error .panicked := by decide +kernel

/-! ## Which declarations are accepted, and what is read -/

/-- variants with a field -/
def fieldVariants (vs : List Variant) : List (Option String × String) :=
  vs.filterMap fun v => match v.fields with
    | .unnamed [t] => some (some v.name, t)
    | _ => none

/-- variants without -/
def unitVariants (vs : List Variant) : List (Text × Option String) :=
  vs.filterMap fun v => match v.fields with
    | .unit => some (kebabOf v.name.toList, some v.name)
    | _ => none

/-- what is demanded of a variant -/
def Variant.Fine (v : Variant) : Prop :=
  (v.fields = .unit ∧ Letters v.name.toList) ∨ ∃ t, v.fields = .unnamed [t]

theorem parseVariants_ok {vs : List Variant} (h : ∀ v ∈ vs, v.Fine) (f : ParseFn) :
    parseVariants f vs = .ok ⟨f.fields ++ fieldVariants vs, f.keywords ++ unitVariants vs⟩ := by
  induction vs generalizing f with
  | nil => simp [parseVariants, fieldVariants, unitVariants]
  | cons v vs ih =>
    have h' : ∀ v ∈ vs, v.Fine := fun x hx => h x (List.mem_cons_of_mem _ hx)
    obtain ⟨n, fs⟩ := v
    rcases h _ List.mem_cons_self with ⟨h1, h2⟩ | ⟨t, h1⟩
    · cases h1
      simp only [parseVariants, kebab_letters h2, bind, Except.bind]
      rw [ih h']
      simp [fieldVariants, unitVariants]
    · cases h1
      simp only [parseVariants]
      rw [ih h']
      simp [fieldVariants, unitVariants]

theorem parseVariants_error {vs : List Variant} (h : ¬ ∀ v ∈ vs, v.Fine) (f : ParseFn) :
    ∃ e, parseVariants f vs = .error e := by
  induction vs generalizing f with
  | nil => exact absurd (fun x hx => absurd hx List.not_mem_nil) h
  | cons v vs ih =>
    by_cases hv : v.Fine
    · have h' : ¬ ∀ v ∈ vs, v.Fine := by
        intro h1
        refine h fun x hx => ?_
        rcases List.mem_cons.1 hx with rfl | hx
        · exact hv
        · exact h1 x hx
      obtain ⟨n, fs⟩ := v
      rcases hv with ⟨h1, h2⟩ | ⟨t, h1⟩
      · cases h1
        simp only [parseVariants, kebab_letters h2, bind, Except.bind]
        exact ih h' _
      · cases h1
        simp only [parseVariants]
        exact ih h' _
    · obtain ⟨n, fs⟩ := v
      cases fs with
      | unit =>
        have h2 : ¬ Letters n.toList := fun h2 => hv (.inl ⟨rfl, h2⟩)
        simp only [parseVariants, kebab, kebabFrom_error h2, bind, Except.bind]
        exact ⟨_, rfl⟩
      | named l => exact ⟨_, rfl⟩
      | unnamed ts =>
        match ts with
        | [] => exact ⟨_, rfl⟩
        | [t] => exact absurd (.inr ⟨t, rfl⟩) hv
        | _ :: _ :: _ => exact ⟨_, rfl⟩

/-- C85: the compiler accepts `#[derive(Parse)]` for exactly these declarations. -/
theorem C85_compiles (i : Input) : (∃ f, parse i = .ok f) ↔ Readable i := by
  obtain ⟨n, ps, data⟩ := i
  cases data with
  | enum vs =>
    by_cases h : ∀ v ∈ vs, v.Fine
    · exact ⟨fun _ => .enum h, fun _ => ⟨_, parseVariants_ok h _⟩⟩
    · obtain ⟨e, he⟩ := parseVariants_error h ⟨[], []⟩
      constructor
      · rintro ⟨f, hf⟩
        rw [show parse ⟨n, ps, .enum vs⟩ = _ from he] at hf
        cases hf
      · intro hr
        cases hr with
        | enum h' => exact absurd h' h
  | struct fs =>
    cases fs with
    | unit =>
      by_cases h : Letters n.toList
      · refine ⟨fun _ => .struct h, fun _ => ⟨⟨[], [(kebabOf n.toList, none)]⟩, ?_⟩⟩
        simp only [parse, kebab_letters h, bind, Except.bind, pure, Except.pure]
      · constructor
        · rintro ⟨f, hf⟩
          simp only [parse, kebab, kebabFrom_error h, bind, Except.bind] at hf
          cases hf
        · intro hr
          cases hr with
          | struct h' => exact absurd h' h
    | unnamed ts => exact ⟨fun ⟨f, hf⟩ => by simp [parse] at hf, fun h => by cases h⟩
    | named ts => exact ⟨fun ⟨f, hf⟩ => by simp [parse] at hf, fun h => by cases h⟩
  | union => exact ⟨fun ⟨f, hf⟩ => by simp [parse] at hf, fun h => by cases h⟩

theorem findSome_eq_some {α β : Type} {f : α → Option β} {l : List α} {b : β} : l.findSome? f = some b ↔
    ∃ pre a post, l = pre ++ a :: post ∧ (∀ x ∈ pre, f x = none) ∧ f a = some b := by
  rw [List.findSome?_eq_some_iff]
  constructor
  · rintro ⟨a, x, b, rfl, h1, h2⟩; exact ⟨a, x, b, rfl, h2, h1⟩
  · rintro ⟨a, x, b, rfl, h1, h2⟩; exact ⟨a, x, b, rfl, h2, h1⟩

theorem mem_fieldVariants {vs : List Variant} {x : Option String × String} :
    x ∈ fieldVariants vs ↔ ∃ n, x.1 = some n ∧ Variant.mk n (.unnamed [x.2]) ∈ vs := by
  unfold fieldVariants
  rw [List.mem_filterMap]
  constructor
  · rintro ⟨⟨n, fs⟩, hv, h⟩
    cases fs with
    | unit => cases h
    | named l => cases h
    | unnamed ts =>
      match ts, h with
      | [t], h => cases h; exact ⟨n, rfl, hv⟩
  · rintro ⟨n, h1, h2⟩
    refine ⟨_, h2, ?_⟩
    obtain ⟨a, b⟩ := x
    cases h1
    rfl

theorem mem_unitVariants {vs : List Variant} {x : Text × Option String} :
    x ∈ unitVariants vs ↔ ∃ n, x = (kebabOf n.toList, some n) ∧ Variant.mk n .unit ∈ vs := by
  unfold unitVariants
  rw [List.mem_filterMap]
  constructor
  · rintro ⟨⟨n, fs⟩, hv, h⟩
    cases fs with
    | unit => cases h; exact ⟨n, rfl, hv⟩
    | named l => cases h
    | unnamed ts =>
      match ts, h with
      | [], h => cases h
      | [t], h => cases h
      | _ :: _ :: _, h => cases h
  · rintro ⟨n, rfl, h2⟩
    exact ⟨_, h2, rfl⟩

theorem fieldVariants_append (a b : List Variant) : fieldVariants (a ++ b) = fieldVariants a ++ fieldVariants b :=
  List.filterMap_append

theorem unitVariants_append (a b : List Variant) : unitVariants (a ++ b) = unitVariants a ++ unitVariants b :=
  List.filterMap_append

theorem fieldVariants_split {vs : List Variant} {pre post : List (Option String × String)} {x : Option String × String}
    (h : fieldVariants vs = pre ++ x :: post) : ∃ vs₁ n vs₂, vs = vs₁ ++ ⟨n, .unnamed [x.2]⟩ :: vs₂ ∧ x.1 = some n ∧
      fieldVariants vs₁ = pre := by
  obtain ⟨l₁, l₂, rfl, h1, h2⟩ := List.filterMap_eq_append_iff.1 h
  obtain ⟨l₃, v, l₄, rfl, h3, h4, h5⟩ := List.filterMap_eq_cons_iff.1 h2
  obtain ⟨n, fs⟩ := v
  have : fs = .unnamed [x.2] ∧ x.1 = some n := by
    cases fs with
    | unit => cases h4
    | named l => cases h4
    | unnamed ts =>
      match ts, h4 with
      | [t], h4 => cases h4; exact ⟨rfl, rfl⟩
  obtain ⟨rfl, hx⟩ := this
  refine ⟨l₁ ++ l₃, n, l₄, by simp, hx, ?_⟩
  rw [fieldVariants_append]
  unfold fieldVariants
  rw [h1, List.filterMap_eq_nil_iff.2 h3]
  simp

theorem unitVariants_split {vs : List Variant} {pre post : List (Text × Option String)} {x : Text × Option String}
    (h : unitVariants vs = pre ++ x :: post) : ∃ vs₁ n vs₂, vs = vs₁ ++ ⟨n, .unit⟩ :: vs₂ ∧
      x = (kebabOf n.toList, some n) ∧ unitVariants vs₁ = pre := by
  obtain ⟨l₁, l₂, rfl, h1, h2⟩ := List.filterMap_eq_append_iff.1 h
  obtain ⟨l₃, v, l₄, rfl, h3, h4, h5⟩ := List.filterMap_eq_cons_iff.1 h2
  obtain ⟨n, fs⟩ := v
  have : fs = .unit ∧ x = (kebabOf n.toList, some n) := by
    cases fs with
    | unit => cases h4; exact ⟨rfl, rfl⟩
    | named l => cases h4
    | unnamed ts =>
      match ts, h4 with
      | [], h4 => cases h4
      | [t], h4 => cases h4
      | _ :: _ :: _, h4 => cases h4
  obtain ⟨rfl, hx⟩ := this
  refine ⟨l₁ ++ l₃, n, l₄, by simp, hx, ?_⟩
  rw [unitVariants_append]
  unfold unitVariants
  rw [h1, List.filterMap_eq_nil_iff.2 h3]
  simp

theorem run_some_iff {V : Type} (parseOf : String → P V) (f : ParseFn) (ts : List Tok) (v : Value V)
    (rest : List Tok) : f.run parseOf ts = some (v, rest) ↔
      (∃ pre c post x, f.fields = pre ++ c :: post ∧ (∀ y ∈ pre, parseOf y.2 ts = none) ∧
        parseOf c.2 ts = some (x, rest) ∧ v = ⟨c.1, [("0", x)]⟩) ∨
      ((∀ y ∈ f.fields, parseOf y.2 ts = none) ∧ ∃ s pre k post, ts = .ident s :: rest ∧
        f.keywords = pre ++ (s, k) :: post ∧ (∀ y ∈ pre, y.1 ≠ s) ∧ v = ⟨k, []⟩) := by
  unfold ParseFn.run
  cases hf : f.fields.findSome? fun c => (parseOf c.2 ts).map fun r => (Value.mk c.1 [("0", r.1)], r.2) with
  | some r =>
    simp only
    obtain ⟨pre, c, post, e, h1, h2⟩ := findSome_eq_some.1 hf
    obtain ⟨⟨x, rest'⟩, h3, h4⟩ := Option.map_eq_some_iff.1 h2
    constructor
    · intro h
      cases h
      simp only [Prod.mk.injEq] at h4
      obtain ⟨rfl, rfl⟩ := h4
      exact .inl ⟨pre, c, post, x, e, fun y hy => by simpa using h1 y hy, h3, rfl⟩
    · rintro (⟨pre', c', post', x', e', h1', h3', rfl⟩ | ⟨h, -⟩)
      · rw [← hf]
        exact findSome_eq_some.2 ⟨pre', c', post', e', fun y hy => by simp [h1' y hy], by simp [h3']⟩
      · have := h c (by rw [e]; simp)
        rw [this] at h3
        cases h3
  | none =>
    have hn : ∀ y ∈ f.fields, parseOf y.2 ts = none := by
      intro y hy
      simpa using List.findSome?_eq_none_iff.1 hf y hy
    simp only
    constructor
    · intro h
      right
      refine ⟨hn, ?_⟩
      split at h
      · cases h
      · split at h
        · rename_i s r
          obtain ⟨⟨s', k⟩, h1, h2⟩ := Option.map_eq_some_iff.1 h
          obtain ⟨hs, pre, post, h3, h4⟩ := List.find?_eq_some_iff_append.1 h1
          simp only [decide_eq_true_eq] at hs
          subst hs
          simp only [Prod.mk.injEq] at h2
          obtain ⟨rfl, rfl⟩ := h2
          exact ⟨_, pre, k, post, rfl, h3, fun y hy => by simpa using h4 y hy, rfl⟩
        · cases h
    · rintro (⟨pre, c, post, x, e, -, h3, -⟩ | ⟨-, s, pre, k, post, rfl, e, h1, rfl⟩)
      · have := hn c (by rw [e]; simp)
        rw [this] at h3
        cases h3
      · have hne : ¬ f.keywords.isEmpty := by rw [e]; simp
        rw [if_neg hne]
        simp only
        have hfi : f.keywords.find? (fun k => k.1 = s) = some (s, k) :=
          List.find?_eq_some_iff_append.2 ⟨by simp, pre, post, e, fun y hy => by simpa using h1 y hy⟩
        rw [hfi]
        rfl

/-- C85: the generated function reads a value if and only if it is the one that the declaration of the type says. -/
theorem C85_parse {V : Type} (parseOf : String → P V) (i : Input) (f : ParseFn) (h : parse i = .ok f) (ts : List Tok)
    (v : Value V) (rest : List Tok) : f.run parseOf ts = some (v, rest) ↔ Reads parseOf i ts v rest := by
  have hR := (C85_compiles i).1 ⟨f, h⟩
  rw [run_some_iff]
  cases hR with
  | @enum n ps vs hv =>
    have hf : f = ⟨fieldVariants vs, unitVariants vs⟩ := by
      have := parseVariants_ok hv ⟨[], []⟩
      rw [show parse ⟨n, ps, .enum vs⟩ = _ from this] at h
      cases h
      rfl
    subst hf
    simp only
    have hlet : ∀ m, Variant.mk m .unit ∈ vs → Letters m.toList := by
      intro m hm
      rcases hv _ hm with ⟨-, h⟩ | ⟨t, h⟩
      · exact h
      · cases h
    constructor
    · rintro (⟨pre, c, post, x, e, h1, h2, rfl⟩ | ⟨h0, s, pre, k, post, rfl, e, h1, rfl⟩)
      · obtain ⟨vs₁, m, vs₂, rfl, h3, rfl⟩ := fieldVariants_split e
        rw [h3]
        refine Reads.field ?_ h2
        intro n' t' hm
        exact h1 (some n', t') (mem_fieldVariants.2 ⟨n', rfl, hm⟩)
      · obtain ⟨vs₁, m, vs₂, rfl, h3, rfl⟩ := unitVariants_split e
        cases h3
        refine Reads.keyword ?_ ?_ ((spelled_iff _ _).2 ⟨hlet m (by simp), rfl⟩)
        · intro n' t' hm
          exact h0 (some n', t') (mem_fieldVariants.2 ⟨n', rfl, hm⟩)
        · intro n' hm hs
          exact h1 _ (mem_unitVariants.2 ⟨n', rfl, hm⟩) ((spelled_iff _ _).1 hs).2.symm
    · intro hr
      cases hr with
      | @field _ _ pre name t post _ x _ h1 h2 =>
        left
        refine ⟨fieldVariants pre, (some name, t), fieldVariants post, x, ?_, ?_, h2, rfl⟩
        · rw [fieldVariants_append]; rfl
        · intro y hy
          obtain ⟨n', -, hm⟩ := mem_fieldVariants.1 hy
          exact h1 _ _ hm
      | @keyword _ _ pre name post s _ h1 h2 h3 =>
        right
        refine ⟨?_, s, unitVariants pre, some name, unitVariants post, rfl, ?_, ?_, rfl⟩
        · intro y hy
          obtain ⟨n', -, hm⟩ := mem_fieldVariants.1 hy
          exact h1 _ _ hm
        · rw [unitVariants_append, ((spelled_iff _ _).1 h3).2]; rfl
        · intro y hy
          obtain ⟨n', rfl, hm⟩ := mem_unitVariants.1 hy
          intro e
          exact h2 n' hm ((spelled_iff _ _).2 ⟨hlet n' (by simp [hm]), e.symm⟩)
  | @struct n ps hn =>
    have hf : f = ⟨[], [(kebabOf n.toList, none)]⟩ := by
      simp only [parse, kebab_letters hn, bind, Except.bind, pure, Except.pure] at h
      cases h
      rfl
    subst hf
    constructor
    · rintro (⟨pre, c, post, x, e, -⟩ | ⟨-, s, pre, k, post, rfl, e, -, rfl⟩)
      · simp at e
      · cases pre with
        | nil =>
          simp only [List.nil_append, List.cons.injEq, Prod.mk.injEq] at e
          obtain ⟨⟨rfl, rfl⟩, -⟩ := e
          exact .struct ((spelled_iff _ _).2 ⟨hn, rfl⟩)
        | cons a pre => simp at e
    · intro hr
      cases hr with
      | @struct _ _ s _ hs =>
        right
        exact ⟨by simp, s, [], none, [], rfl, by rw [((spelled_iff _ _).1 hs).2]; rfl, by simp, rfl⟩

/-- back to the name -/
def camelFrom : (start : Bool) → Text → Text
  | _, [] => []
  | up, c :: cs => if c = '-' then camelFrom true cs else (if up then c.toUpper else c) :: camelFrom false cs

theorem toUpper_toLower {c : Char} (h : c.isUpper) : c.toLower.toUpper = c := by
  have h' := (isUpper_iff c).1 h
  have key : ∀ n : Fin 26, (Char.ofNat (n + 65)).toLower.toUpper = Char.ofNat (n + 65) := by decide +kernel
  have h1 := h'.1
  have h2 := h'.2
  rw [Char.le_def, UInt32.le_iff_toNat_le] at h1 h2
  simp at h1 h2
  have e : c = Char.ofNat ((c.toNat - 65) + 65) := by
    have : c.toNat = c.val.toNat := rfl
    rw [show c.toNat - 65 + 65 = c.toNat by omega, Char.ofNat_toNat]
  have hlt : c.toNat - 65 < 26 := by
    have : c.toNat = c.val.toNat := rfl
    omega
  have := key ⟨c.toNat - 65, hlt⟩
  rw [← e] at this
  exact this

theorem toLower_ne_hyphen {c : Char} (h : c.isUpper) : c.toLower ≠ '-' := by
  intro e
  have := toUpper_toLower h
  rw [e] at this
  subst this
  exact absurd h (by decide)

theorem camel_tail {cs : Text} (h : Letters cs) : camelFrom false (tailKebab cs) = cs := by
  induction cs with
  | nil => rfl
  | cons c cs ih =>
    have ih := ih fun x hx => h x (List.mem_cons_of_mem _ hx)
    rw [tailKebab]
    by_cases hl : c.isLower
    · rw [if_pos hl, camelFrom, if_neg, if_neg (by decide), ih]
      rintro rfl
      exact absurd hl (by decide)
    · have hu : c.isUpper := by
        rcases h c List.mem_cons_self with h1 | h1
        · exact absurd ((isLower_iff c).2 h1) hl
        · exact (isUpper_iff c).2 h1
      rw [if_neg hl, camelFrom, if_pos rfl, camelFrom, if_neg (toLower_ne_hyphen hu), if_pos rfl, ih,
        toUpper_toLower hu]

/-- a name starts with a capital letter -/
def Capital (name : Text) : Prop := ∃ c, name.head? = some c ∧ 'A' ≤ c ∧ c ≤ 'Z'

theorem camel_kebab {name : Text} (h : Letters name) (hc : Capital name) : camelFrom true (kebabOf name) = name := by
  cases name with
  | nil => obtain ⟨c, hc, -⟩ := hc; cases hc
  | cons c cs =>
    obtain ⟨c', hc, h1⟩ := hc
    cases hc
    have hu := (isUpper_iff c).2 h1
    rw [kebabOf, camelFrom, if_neg (toLower_ne_hyphen hu), if_pos rfl, toUpper_toLower hu,
      camel_tail fun x hx => h x (List.mem_cons_of_mem _ hx)]

/-- C85: different names that start with a capital letter are spelled differently. -/
theorem C85_distinct (a b k : Text) (ha : Capital a) (hb : Capital b) (h1 : Spelled a k) (h2 : Spelled b k) :
    a = b := by
  obtain ⟨l1, e1⟩ := (spelled_iff _ _).1 h1
  obtain ⟨l2, e2⟩ := (spelled_iff _ _).1 h2
  rw [← camel_kebab l1 ha, ← e1, e2, camel_kebab l2 hb]

-- `aB` and `AB` are spelled alike
example : Spelled "aB".toList "a-b".toList ∧ Spelled "AB".toList "a-b".toList := by
  exact ⟨(C85_spelling "aB" _).1 (by decide +kernel), (C85_spelling "AB" _).1 (by decide +kernel)⟩

/-- C85: every variant without field is read from its keyword, if the names start with capital letters and no variant
with a field can be read from it. -/
theorem C85_reachable {V : Type} (parseOf : String → P V) (n : String) (ps : List String) (vs : List Variant)
    (f : ParseFn) (h : parse ⟨n, ps, .enum vs⟩ = .ok f) (hc : ∀ m, Variant.mk m .unit ∈ vs → Capital m.toList)
    (name : String) (hv : Variant.mk name .unit ∈ vs) :
    ∃ k, Spelled name.toList k ∧ ∀ rest,
      (∀ m t, Variant.mk m (.unnamed [t]) ∈ vs → parseOf t (.ident k :: rest) = none) →
      f.run parseOf (.ident k :: rest) = some (⟨some name, []⟩, rest) := by
  have hR := (C85_compiles _).1 ⟨f, h⟩
  cases hR with
  | enum hfine =>
    have hl : Letters name.toList := by
      rcases hfine _ hv with ⟨-, h⟩ | ⟨t, h⟩
      · exact h
      · cases h
    refine ⟨kebabOf name.toList, (spelled_iff _ _).2 ⟨hl, rfl⟩, fun rest hf => ?_⟩
    rw [C85_parse parseOf _ f h]
    -- the first variant of that name
    obtain ⟨pre, post, rfl, hpre⟩ : ∃ pre post, vs = pre ++ ⟨name, .unit⟩ :: post ∧ Variant.mk name .unit ∉ pre := by
      exact List.eq_append_cons_of_mem hv
    refine Reads.keyword hf ?_ ((spelled_iff _ _).2 ⟨hl, rfl⟩)
    intro m hm hs
    have := C85_distinct m.toList name.toList _ (hc m (by simp [hm])) (hc name hv) hs ((spelled_iff _ _).2 ⟨hl, rfl⟩)
    have : m = name := String.toList_injective this
    subst this
    exact hpre hm

/-! ## Conversions -/

theorem lookup_of_nodup {V : Type} {args : List (String × V)} (hn : (args.map Prod.fst).Nodup) {n : String} {x : V}
    (h : (n, x) ∈ args) : args.lookup n = some x := by
  induction args with
  | nil => cases h
  | cons a args ih =>
    obtain ⟨m, y⟩ := a
    simp only [List.map_cons, List.nodup_cons] at hn
    rcases List.mem_cons.1 h with h' | h'
    · cases h'
      simp
    · have hne : n ≠ m := fun e => hn.1 (List.mem_map.2 ⟨(n, x), h', e⟩)
      rw [List.lookup_cons]
      have : (n == m) = false := by simpa using hne
      rw [this]
      exact ih hn.2 h'

theorem armFields_some {V W : Type} (conv : String → V → W) (args : List (String × V))
    (fs : List (String × String)) (h : ∀ p ∈ fs, ∃ x, args.lookup p.1 = some x) :
    ∃ r, armFields conv args fs = some r ∧
      List.Forall₂ (fun (p : String × String) (q : String × W) =>
        q.1 = p.1 ∧ ∃ x, args.lookup p.1 = some x ∧ q.2 = conv p.2 x) fs r := by
  induction fs with
  | nil => exact ⟨[], rfl, .nil⟩
  | cons p fs ih =>
    obtain ⟨n, t⟩ := p
    obtain ⟨x, hx⟩ := h _ List.mem_cons_self
    obtain ⟨r, h1, h2⟩ := ih fun p hp => h p (List.mem_cons_of_mem _ hp)
    refine ⟨(n, conv t x) :: r, ?_, .cons ⟨rfl, x, hx, rfl⟩ h2⟩
    simp only at hx
    simp only [armFields, hx, h1, bind, Option.bind, pure]

theorem Fields.list_typeOf {fs : Fields} {p : String × String} (h : p ∈ fs.list) : fs.TypeOf p.1 p.2 := by
  cases fs with
  | unit => cases h
  | unnamed ts =>
    obtain ⟨⟨t, k⟩, hk, rfl⟩ := List.mem_map.1 h
    rw [List.mem_zipIdx_iff_getElem?] at hk
    exact .unnamed hk
  | named l => exact .named h

theorem Fields.list_named (fs : Fields) : fs.Named (fs.list.map Prod.fst) := by
  cases fs with
  | unit => rfl
  | unnamed ts =>
    show _ = _
    simp only [Fields.list, List.map_map]
    apply List.ext_getElem?
    intro k
    simp only [List.getElem?_map, List.getElem?_zipIdx]
    by_cases hk : k < ts.length
    · simp [hk]
    · simp [hk]
  | named l => rfl

theorem Fields.Named.unique {fs : Fields} {a b : List String} (h1 : fs.Named a) (h2 : fs.Named b) : a = b := by
  cases fs <;> exact Eq.trans h1 h2.symm

/-- C85: `#[derive(FromSpecified)]` on a type is accepted unless the type is a union.  If the other type has a
constructor of the same name with fields of the same names, its values are converted to values of the constructor of
this name, with the contents of each field converted as the type of the field says.  (Names of variants and of fields
in a declaration are distinct.) -/
theorem C85_from_specified {V W : Type} (conv : String → V → W) (i : Input) (hu : i.data ≠ .union)
    (hd : ∀ vs, i.data = .enum vs → (vs.map Variant.name).Nodup) :
    ∃ f, fromSpecified i = .ok f ∧
      (i.typeParams = [] → f.specifiedName = "Specified" ++ i.ident ∧ f.specifiedArgs = []) ∧
      ∀ (v : Value V) (fs : Fields) (names : List String), HasCtor i v.ctor fs → fs.Named names →
        (v.args.map Prod.fst).Nodup → (∀ n ∈ names, n ∈ v.args.map Prod.fst) →
        ∃ w, f.run conv v = some w ∧ w.ctor = v.ctor ∧ w.args.map Prod.fst = names ∧
          ∀ n y, (n, y) ∈ w.args → ∃ t x, fs.TypeOf n t ∧ (n, x) ∈ v.args ∧ y = conv t x := by
  obtain ⟨nm, ps, data⟩ := i
  -- one constructor
  have key : ∀ (v : Value V) (fs : Fields) (names : List String) (f : FromFn),
      f.arms.find? (fun a => a.1 = v.ctor) = some (v.ctor, fs.list) → fs.Named names →
        (v.args.map Prod.fst).Nodup → (∀ n ∈ names, n ∈ v.args.map Prod.fst) →
        ∃ w, f.run conv v = some w ∧ w.ctor = v.ctor ∧ w.args.map Prod.fst = names ∧
          ∀ n y, (n, y) ∈ w.args → ∃ t x, fs.TypeOf n t ∧ (n, x) ∈ v.args ∧ y = conv t x := by
    intro v fs names f hf hn hnd hin
    have hl : ∀ p ∈ fs.list, ∃ x, (p.1, x) ∈ v.args := by
      intro p hp
      have := hin p.1 (by rw [hn.unique fs.list_named]; exact List.mem_map_of_mem hp)
      obtain ⟨⟨a, x⟩, hx, e⟩ := List.mem_map.1 this
      simp only at e
      subst e
      exact ⟨x, hx⟩
    obtain ⟨r, h1, h2⟩ := armFields_some conv v.args fs.list fun p hp => by
      obtain ⟨x, hx⟩ := hl p hp
      exact ⟨x, lookup_of_nodup hnd hx⟩
    refine ⟨⟨v.ctor, r⟩, ?_, rfl, ?_, ?_⟩
    · simp only [FromFn.run, hf, h1, Option.map_some]
    · rw [hn.unique fs.list_named]
      clear h1 hl hf hin hn
      show r.map Prod.fst = _
      generalize fs.list = l at h2 ⊢
      induction h2 with
      | nil => rfl
      | cons hpq _ ih => simp [hpq.1, ih]
    · intro n y hy
      obtain ⟨p, hp, e1, x, hx, e2⟩ : ∃ p ∈ fs.list, n = p.1 ∧ ∃ x, v.args.lookup p.1 = some x ∧ y = conv p.2 x := by
        clear h1 hl hf hin hn
        change (n, y) ∈ r at hy
        generalize fs.list = l at h2 ⊢
        induction h2 with
        | nil => cases hy
        | @cons p q _ _ hpq _ ih =>
          rcases List.mem_cons.1 hy with rfl | hy
          · exact ⟨p, List.mem_cons_self, hpq⟩
          · obtain ⟨p', hp', hh⟩ := ih hy
            exact ⟨p', List.mem_cons_of_mem _ hp', hh⟩
      obtain ⟨x', hx'⟩ := hl p hp
      rw [lookup_of_nodup hnd hx'] at hx
      cases hx
      exact ⟨p.2, x, e1 ▸ Fields.list_typeOf hp, e1 ▸ hx', e2⟩
  cases data with
  | union => exact absurd rfl hu
  | struct fs =>
    refine ⟨_, rfl, ?_, ?_⟩
    · rintro rfl
      exact ⟨rfl, rfl⟩
    · intro v fs' names hc
      cases hv : v.ctor with
      | some c => rw [hv] at hc; cases hc
      | none =>
        rw [hv] at hc
        cases hc
        rw [← hv]
        exact key v fs names _ (by simp [hv])
  | enum vs =>
    refine ⟨_, rfl, ?_, ?_⟩
    · rintro rfl
      exact ⟨rfl, rfl⟩
    · intro v fs names hc
      cases hv : v.ctor with
      | none => rw [hv] at hc; cases hc
      | some c =>
        rw [hv] at hc
        cases hc with
        | variant hm =>
          rw [← hv]
          refine key v fs names _ ?_
          simp only
          have hnd := hd vs rfl
          clear hd hu
          induction vs with
          | nil => cases hm
          | cons u vs ih =>
            simp only [List.map_cons, List.nodup_cons] at hnd
            rw [List.map_cons, List.find?_cons]
            rcases List.mem_cons.1 hm with rfl | hm
            · simp [hv]
            · have hne : u.name ≠ c := by
                rintro rfl
                exact hnd.1 (List.mem_map.2 ⟨_, hm, rfl⟩)
              have : decide ((some u.name) = v.ctor) = false := by simp [hv, hne]
              simp only [this]
              exact ih hm hnd.2

theorem mem_variantImpls {vs : List Variant} {p : String × String} :
    p ∈ variantImpls vs ↔ Variant.mk p.2 (.unnamed [p.1]) ∈ vs := by
  induction vs with
  | nil => simp [variantImpls]
  | cons v vs ih =>
    obtain ⟨n, fs⟩ := v
    obtain ⟨t, m⟩ := p
    unfold variantImpls
    split
    · rename_i t' h
      simp only at h
      subst h
      rw [List.mem_cons, List.mem_cons, ih]
      simp [and_comm]
    · rename_i h
      rw [List.mem_cons, ih]
      constructor
      · exact .inr
      · rintro (e | e)
        · injection e with e1 e2
          exact absurd e2.symm (h t)
        · exact e

/-- C85: `#[derive(FromVariants)]` is accepted for enums with a variant that has exactly one field, without a name. -/
theorem C85_variants_compile (i : Input) : (∃ f, fromVariants i = .ok f) ↔
    ∃ vs n t, i.data = .enum vs ∧ Variant.mk n (.unnamed [t]) ∈ vs := by
  obtain ⟨nm, ps, data⟩ := i
  cases data with
  | enum vs =>
    simp only [fromVariants]
    cases hi : variantImpls vs with
    | nil =>
      simp only [List.isEmpty_nil, if_true]
      constructor
      · rintro ⟨f, hf⟩; cases hf
      · rintro ⟨_, n, t, e, h⟩
        cases e
        have := (mem_variantImpls (p := (t, n))).2 h
        rw [hi] at this
        cases this
    | cons p ps' =>
      simp only [List.isEmpty_cons, Bool.false_eq_true, if_false]
      exact ⟨fun _ => ⟨vs, p.2, p.1, rfl, mem_variantImpls.1 (by rw [hi]; simp)⟩, fun _ => ⟨_, rfl⟩⟩
  | struct fs => exact ⟨fun ⟨f, hf⟩ => by simp [fromVariants] at hf, fun ⟨_, _, _, h, _⟩ => by cases h⟩
  | union => exact ⟨fun ⟨f, hf⟩ => by simp [fromVariants] at hf, fun ⟨_, _, _, h, _⟩ => by cases h⟩

/-- C85: a value is wrapped into the variant that has a field of its type. -/
theorem C85_into {V : Type} (n : String) (ps : List String) (vs : List Variant) (impls : List (String × String))
    (h : fromVariants ⟨n, ps, .enum vs⟩ = .ok impls) (hc : coherent impls) (type : String) (x : V) (v : Value V) :
    into impls type x = some v ↔ ∃ name, Variant.mk name (.unnamed [type]) ∈ vs ∧ v = ⟨some name, [("0", x)]⟩ := by
  have hi : impls = variantImpls vs := by
    simp only [fromVariants] at h
    split at h
    · cases h
    · cases h; rfl
  subst hi
  unfold into
  constructor
  · intro hh
    obtain ⟨p, h1, rfl⟩ := Option.map_eq_some_iff.1 hh
    have h2 := List.find?_some h1
    simp only [decide_eq_true_eq] at h2
    subst h2
    exact ⟨p.2, mem_variantImpls.1 (List.mem_of_find?_eq_some h1), rfl⟩
  · rintro ⟨name, hm, rfl⟩
    have hm' := (mem_variantImpls (p := (type, name))).2 hm
    cases hf : (variantImpls vs).find? fun p => p.1 = type with
    | none =>
      have := List.find?_eq_none.1 hf _ hm'
      simp at this
    | some q =>
      have h2 := List.find?_some hf
      simp only [decide_eq_true_eq] at h2
      have hq := List.mem_of_find?_eq_some hf
      have : q = (type, name) := by
        have := List.inj_on_of_nodup_map hc hq hm' (by simpa using h2)
        exact this
      subst this
      rfl

/-! ## The types of the program -/

/-- contents of the fields of specified values -/
inductive Payload where
  | length (l : SpecifiedLength)
  | ratio (q : ℚ)
  | size (v : SpecifiedLengthOrPercentage)
  deriving DecidableEq

/-- `Parse` for the types of the fields (style/values/length.rs 36, 82-136) -/
def fieldParsers : String → P Payload
  | "SpecifiedLength" => SpecifiedLength.parse.map .length
  | "Percentage" => parsePercentage.map .ratio
  | "Number" => parseNumber.map .ratio
  | "SpecifiedLengthOrPercentage" => SpecifiedLengthOrPercentage.parse.map .size
  | _ => fun _ => none

/-- the function derived from the declaration `i` is the parser `p`; `g` identifies the values of the declared type
with those of the model -/
def Derives {α : Type} (i : Input) (g : Value Payload → Option α) (p : P α) : Prop :=
  ∃ f, parse i = .ok f ∧ ∀ ts, (f.run fieldParsers ts).map (fun r => (g r.1, r.2)) =
    (p ts).map fun r => (some r.1, r.2)

theorem derives_of {α : Type} {i : Input} {g : Value Payload → Option α} (fields : List (String × String × P α))
    (units : List (String × α))
    (h : parse i = .ok ⟨fields.map fun x => (some x.1, x.2.1), units.map fun u => (camelToKebab u.1, some u.1)⟩)
    (hf : ∀ x ∈ fields, ∀ ts, (fieldParsers x.2.1 ts).map (fun r => (g ⟨some x.1, [("0", r.1)]⟩, r.2)) =
      (x.2.2 ts).map fun r => (some r.1, r.2))
    (hu : ∀ u ∈ units, g ⟨some u.1, []⟩ = some u.2) :
    Derives i g (deriveParse (fields.map fun x => x.2.2) units) := by
  refine ⟨_, h, fun ts => ?_⟩
  unfold ParseFn.run deriveParse
  simp only
  clear h
  induction fields with
  | nil =>
    simp only [List.map_nil, List.findSome?_nil]
    cases units with
    | nil => cases ts with
      | nil => rfl
      | cons t ts => cases t <;> rfl
    | cons u us =>
      simp only [List.map_cons, List.isEmpty_cons, Bool.false_eq_true, if_false]
      split
      · rename_i s rest
        rw [← List.map_cons (f := fun u : String × α => (camelToKebab u.1, some u.1)), List.find?_map]
        simp only [Function.comp_def]
        cases hfi : (u :: us).find? fun u => decide (camelToKebab u.1 = s) with
        | none => rfl
        | some w =>
          simp only [Option.map_some]
          rw [hu w (List.mem_of_find?_eq_some hfi)]
      · rename_i hne
        cases ts with
        | nil => rfl
        | cons t ts =>
          cases t with
          | ident s => exact absurd rfl (hne s ts)
          | _ => rfl
  | cons x fields ih =>
    have hx := hf x List.mem_cons_self ts
    simp only [List.map_cons, List.findSome?_cons]
    cases hp : fieldParsers x.2.1 ts with
    | some r =>
      rw [hp] at hx
      cases hq : x.2.2 ts with
      | none => rw [hq] at hx; cases hx
      | some q =>
        rw [hq] at hx
        simp only [Option.map_some] at hx ⊢
        exact hx
    | none =>
      rw [hp] at hx
      cases hq : x.2.2 ts with
      | none => exact ih fun y hy => hf y (List.mem_cons_of_mem _ hy)
      | some q => rw [hq] at hx; cases hx

theorem field_eq {α β : Type} {g : Value Payload → Option α} {name type : String} {p : P β} {c : β → Payload} {k : β → α}
    (h1 : fieldParsers type = p.map c) (h2 : ∀ b, g ⟨some name, [("0", c b)]⟩ = some (k b)) (ts : List Tok) :
    (fieldParsers type ts).map (fun r => (g ⟨some name, [("0", r.1)]⟩, r.2)) =
      (p.map k ts).map fun r => (some r.1, r.2) := by
  rw [h1]
  simp only [P.map]
  cases p ts with
  | none => rfl
  | some r => simp [h2]

theorem length_field {α : Type} (g : Value Payload → Option α) (name : String) (k : SpecifiedLength → α)
    (h : ∀ b, g ⟨some name, [("0", .length b)]⟩ = some (k b)) (ts : List Tok) :
    (fieldParsers "SpecifiedLength" ts).map (fun r => (g ⟨some name, [("0", r.1)]⟩, r.2)) =
      (SpecifiedLength.parse.map k ts).map fun r => (some r.1, r.2) := field_eq rfl h ts

theorem percentage_field {α : Type} (g : Value Payload → Option α) (name : String) (k : ℚ → α)
    (h : ∀ b, g ⟨some name, [("0", .ratio b)]⟩ = some (k b)) (ts : List Tok) :
    (fieldParsers "Percentage" ts).map (fun r => (g ⟨some name, [("0", r.1)]⟩, r.2)) =
      (parsePercentage.map k ts).map fun r => (some r.1, r.2) := field_eq rfl h ts

theorem number_field {α : Type} (g : Value Payload → Option α) (name : String) (k : ℚ → α)
    (h : ∀ b, g ⟨some name, [("0", .ratio b)]⟩ = some (k b)) (ts : List Tok) :
    (fieldParsers "Number" ts).map (fun r => (g ⟨some name, [("0", r.1)]⟩, r.2)) =
      (parseNumber.map k ts).map fun r => (some r.1, r.2) := field_eq rfl h ts

theorem size_field {α : Type} (g : Value Payload → Option α) (name : String) (k : SpecifiedLengthOrPercentage → α)
    (h : ∀ b, g ⟨some name, [("0", .size b)]⟩ = some (k b)) (ts : List Tok) :
    (fieldParsers "SpecifiedLengthOrPercentage" ts).map (fun r => (g ⟨some name, [("0", r.1)]⟩, r.2)) =
      (SpecifiedLengthOrPercentage.parse.map k ts).map fun r => (some r.1, r.2) := field_eq rfl h ts

/-- style/values/mod.rs 57-62 -/
def cssWideKeywordDecl : Input := ⟨"CssWideKeyword", [], .enum [⟨"Inherit", .unit⟩, ⟨"Initial", .unit⟩, ⟨"Unset", .unit⟩]⟩

/-- style/values/border.rs 6-12 -/
def lineStyleDecl : Input :=
  ⟨"LineStyle", [], .enum [⟨"None", .unit⟩, ⟨"Solid", .unit⟩, ⟨"Dotted", .unit⟩, ⟨"Dashed", .unit⟩]⟩

/-- style/values/border.rs 14-20 -/
def parsedLineWidthDecl : Input :=
  ⟨"ParsedLineWidth", [], .enum [⟨"Thin", .unit⟩, ⟨"Medium", .unit⟩, ⟨"Thick", .unit⟩,
    ⟨"Other", .unnamed ["SpecifiedLengthOrPercentage"]⟩]⟩

/-- style/values/fonts.rs 25-30 -/
def fontStyleDecl : Input := ⟨"FontStyle", [], .enum [⟨"Normal", .unit⟩, ⟨"Italic", .unit⟩, ⟨"Oblique", .unit⟩]⟩

/-- style/values/fonts.rs 32-36 -/
def fontWeightDecl : Input := ⟨"FontWeight", [], .enum [⟨"Normal", .unit⟩, ⟨"Bold", .unit⟩]⟩

/-- style/values/box_.rs 111-116 -/
def floatDecl : Input := ⟨"Float", [], .enum [⟨"None", .unit⟩, ⟨"Left", .unit⟩, ⟨"Right", .unit⟩]⟩

/-- style/values/box_.rs 128-133 -/
def positionDecl : Input := ⟨"Position", [], .enum [⟨"Static", .unit⟩, ⟨"Relative", .unit⟩, ⟨"Absolute", .unit⟩]⟩

/-- style/values/text.rs 3-11 -/
def whiteSpaceDecl : Input :=
  ⟨"WhiteSpace", [], .enum [⟨"Normal", .unit⟩, ⟨"Nowrap", .unit⟩, ⟨"Pre", .unit⟩, ⟨"PreWrap", .unit⟩,
    ⟨"PreLine", .unit⟩, ⟨"BreakSpaces", .unit⟩]⟩

/-- style/values/text.rs 13-20 -/
def specifiedTextAlignDecl : Input :=
  ⟨"SpecifiedTextAlign", [], .enum [⟨"Left", .unit⟩, ⟨"Right", .unit⟩, ⟨"Center", .unit⟩, ⟨"Justify", .unit⟩,
    ⟨"Percentage", .unnamed ["Percentage"]⟩]⟩

/-- style/values/line.rs 3-15 -/
def specifiedVerticalAlignDecl : Input :=
  ⟨"SpecifiedVerticalAlign", [], .enum [⟨"Baseline", .unit⟩, ⟨"Sub", .unit⟩, ⟨"Super", .unit⟩, ⟨"Top", .unit⟩,
    ⟨"TextTop", .unit⟩, ⟨"Middle", .unit⟩, ⟨"Bottom", .unit⟩, ⟨"TextBottom", .unit⟩,
    ⟨"Length", .unnamed ["SpecifiedLength"]⟩, ⟨"Percentage", .unnamed ["Percentage"]⟩]⟩

/-- style/values/length.rs 36-40 -/
def specifiedLengthOrPercentageDecl : Input :=
  ⟨"SpecifiedLengthOrPercentage", [], .enum [⟨"Length", .unnamed ["SpecifiedLength"]⟩,
    ⟨"Percentage", .unnamed ["Percentage"]⟩]⟩

/-- style/values/length.rs 48-53 -/
def specifiedLengthOrPercentageOrAutoDecl : Input :=
  ⟨"SpecifiedLengthOrPercentageOrAuto", [], .enum [⟨"Length", .unnamed ["SpecifiedLength"]⟩,
    ⟨"Percentage", .unnamed ["Percentage"]⟩, ⟨"Auto", .unit⟩]⟩

/-- style/values/length.rs 62-67 -/
def specifiedLengthOrPercentageOrNumberDecl : Input :=
  ⟨"SpecifiedLengthOrPercentageOrNumber", [], .enum [⟨"Length", .unnamed ["SpecifiedLength"]⟩,
    ⟨"Percentage", .unnamed ["Percentage"]⟩, ⟨"Number", .unnamed ["Number"]⟩]⟩

/-- values of the declared types as values of the model -/
def asCssWideKeyword : Value Payload → Option CssWideKeyword
  | ⟨some "Inherit", []⟩ => some .inherit
  | ⟨some "Initial", []⟩ => some .initial
  | ⟨some "Unset", []⟩ => some .unset
  | _ => none

@[inherit_doc asCssWideKeyword] def asLineStyle : Value Payload → Option LineStyle
  | ⟨some "None", []⟩ => some .none
  | ⟨some "Solid", []⟩ => some .solid
  | ⟨some "Dotted", []⟩ => some .dotted
  | ⟨some "Dashed", []⟩ => some .dashed
  | _ => none

@[inherit_doc asCssWideKeyword] def asParsedLineWidth : Value Payload → Option ParsedLineWidth
  | ⟨some "Thin", []⟩ => some .thin
  | ⟨some "Medium", []⟩ => some .medium
  | ⟨some "Thick", []⟩ => some .thick
  | ⟨some "Other", [("0", .size v)]⟩ => some (.other v)
  | _ => none

@[inherit_doc asCssWideKeyword] def asFontStyle : Value Payload → Option FontStyle
  | ⟨some "Normal", []⟩ => some .normal
  | ⟨some "Italic", []⟩ => some .italic
  | ⟨some "Oblique", []⟩ => some .oblique
  | _ => none

@[inherit_doc asCssWideKeyword] def asFontWeight : Value Payload → Option FontWeight
  | ⟨some "Normal", []⟩ => some .normal
  | ⟨some "Bold", []⟩ => some .bold
  | _ => none

@[inherit_doc asCssWideKeyword] def asFloat : Value Payload → Option Float'
  | ⟨some "None", []⟩ => some .none
  | ⟨some "Left", []⟩ => some .left
  | ⟨some "Right", []⟩ => some .right
  | _ => none

@[inherit_doc asCssWideKeyword] def asPosition : Value Payload → Option Position
  | ⟨some "Static", []⟩ => some .static
  | ⟨some "Relative", []⟩ => some .relative
  | ⟨some "Absolute", []⟩ => some .absolute
  | _ => none

@[inherit_doc asCssWideKeyword] def asWhiteSpace : Value Payload → Option WhiteSpace
  | ⟨some "Normal", []⟩ => some .normal
  | ⟨some "Nowrap", []⟩ => some .nowrap
  | ⟨some "Pre", []⟩ => some .pre
  | ⟨some "PreWrap", []⟩ => some .preWrap
  | ⟨some "PreLine", []⟩ => some .preLine
  | ⟨some "BreakSpaces", []⟩ => some .breakSpaces
  | _ => none

@[inherit_doc asCssWideKeyword] def asTextAlign : Value Payload → Option TextAlign
  | ⟨some "Left", []⟩ => some .left
  | ⟨some "Right", []⟩ => some .right
  | ⟨some "Center", []⟩ => some .center
  | ⟨some "Justify", []⟩ => some .justify
  | ⟨some "Percentage", [("0", .ratio q)]⟩ => some (.percentage q)
  | _ => none

@[inherit_doc asCssWideKeyword] def asVerticalAlign : Value Payload → Option SpecifiedVerticalAlign
  | ⟨some "Baseline", []⟩ => some .baseline
  | ⟨some "Sub", []⟩ => some .sub
  | ⟨some "Super", []⟩ => some .super
  | ⟨some "Top", []⟩ => some .top
  | ⟨some "TextTop", []⟩ => some .textTop
  | ⟨some "Middle", []⟩ => some .middle
  | ⟨some "Bottom", []⟩ => some .bottom
  | ⟨some "TextBottom", []⟩ => some .textBottom
  | ⟨some "Length", [("0", .length l)]⟩ => some (.length l)
  | ⟨some "Percentage", [("0", .ratio q)]⟩ => some (.percentage q)
  | _ => none

@[inherit_doc asCssWideKeyword] def asLengthOrPercentage : Value Payload → Option SpecifiedLengthOrPercentage
  | ⟨some "Length", [("0", .length l)]⟩ => some (.length l)
  | ⟨some "Percentage", [("0", .ratio q)]⟩ => some (.percentage q)
  | _ => none

@[inherit_doc asCssWideKeyword] def asLengthOrPercentageOrAuto :
    Value Payload → Option SpecifiedLengthOrPercentageOrAuto
  | ⟨some "Length", [("0", .length l)]⟩ => some (.length l)
  | ⟨some "Percentage", [("0", .ratio q)]⟩ => some (.percentage q)
  | ⟨some "Auto", []⟩ => some .auto
  | _ => none

@[inherit_doc asCssWideKeyword] def asLengthOrPercentageOrNumber :
    Value Payload → Option SpecifiedLengthOrPercentageOrNumber
  | ⟨some "Length", [("0", .length l)]⟩ => some (.length l)
  | ⟨some "Percentage", [("0", .ratio q)]⟩ => some (.percentage q)
  | ⟨some "Number", [("0", .ratio q)]⟩ => some (.number q)
  | _ => none

/-- C85 for the program: the parsers of the model are the functions that the macro derives from the declarations of
the types. -/
theorem C85_types : Derives cssWideKeywordDecl asCssWideKeyword CssWideKeyword.parse ∧
    Derives lineStyleDecl asLineStyle LineStyle.parse ∧
    Derives parsedLineWidthDecl asParsedLineWidth ParsedLineWidth.parse ∧
    Derives fontStyleDecl asFontStyle FontStyle.parse ∧ Derives fontWeightDecl asFontWeight FontWeight.parse ∧
    Derives floatDecl asFloat Float'.parse ∧ Derives positionDecl asPosition Position.parse ∧
    Derives whiteSpaceDecl asWhiteSpace WhiteSpace.parse ∧
    Derives specifiedTextAlignDecl asTextAlign TextAlign.parse ∧
    Derives specifiedVerticalAlignDecl asVerticalAlign SpecifiedVerticalAlign.parse ∧
    Derives specifiedLengthOrPercentageDecl asLengthOrPercentage SpecifiedLengthOrPercentage.parse ∧
    Derives specifiedLengthOrPercentageOrAutoDecl asLengthOrPercentageOrAuto
      SpecifiedLengthOrPercentageOrAuto.parse ∧
    Derives specifiedLengthOrPercentageOrNumberDecl asLengthOrPercentageOrNumber
      SpecifiedLengthOrPercentageOrNumber.parse := by
  refine ⟨?_, ?_, ?_, ?_, ?_, ?_, ?_, ?_, ?_, ?_, ?_, ?_, ?_⟩
  · exact derives_of (g := asCssWideKeyword) [] [("Inherit", .inherit), ("Initial", .initial), ("Unset", .unset)] (by decide +kernel)
      (by simp) (by simp [asCssWideKeyword])
  · exact derives_of (g := asLineStyle) [] [("None", .none), ("Solid", .solid), ("Dotted", .dotted), ("Dashed", .dashed)]
      (by decide +kernel) (by simp) (by simp [asLineStyle])
  · exact derives_of (g := asParsedLineWidth) [("Other", "SpecifiedLengthOrPercentage", SpecifiedLengthOrPercentage.parse.map .other)]
      [("Thin", .thin), ("Medium", .medium), ("Thick", .thick)] (by decide +kernel)
      (by
        intro x hx ts
        simp only [List.mem_cons, List.not_mem_nil, or_false] at hx
        subst hx
        exact size_field asParsedLineWidth "Other" .other (fun _ => rfl) ts)
      (by simp [asParsedLineWidth])
  · exact derives_of (g := asFontStyle) [] [("Normal", .normal), ("Italic", .italic), ("Oblique", .oblique)] (by decide +kernel)
      (by simp) (by simp [asFontStyle])
  · exact derives_of (g := asFontWeight) [] [("Normal", .normal), ("Bold", .bold)] (by decide +kernel) (by simp) (by simp [asFontWeight])
  · exact derives_of (g := asFloat) [] [("None", .none), ("Left", .left), ("Right", .right)] (by decide +kernel) (by simp)
      (by simp [asFloat])
  · exact derives_of (g := asPosition) [] [("Static", .static), ("Relative", .relative), ("Absolute", .absolute)] (by decide +kernel)
      (by simp) (by simp [asPosition])
  · exact derives_of (g := asWhiteSpace) [] [("Normal", .normal), ("Nowrap", .nowrap), ("Pre", .pre), ("PreWrap", .preWrap),
      ("PreLine", .preLine), ("BreakSpaces", .breakSpaces)] (by decide +kernel) (by simp) (by simp [asWhiteSpace])
  · exact derives_of (g := asTextAlign) [("Percentage", "Percentage", parsePercentage.map .percentage)]
      [("Left", .left), ("Right", .right), ("Center", .center), ("Justify", .justify)] (by decide +kernel)
      (by
        intro x hx ts
        simp only [List.mem_cons, List.not_mem_nil, or_false] at hx
        subst hx
        exact percentage_field asTextAlign "Percentage" .percentage (fun _ => rfl) ts)
      (by simp [asTextAlign])
  · exact derives_of (g := asVerticalAlign) [("Length", "SpecifiedLength", SpecifiedLength.parse.map .length),
      ("Percentage", "Percentage", parsePercentage.map .percentage)]
      [("Baseline", .baseline), ("Sub", .sub), ("Super", .super), ("Top", .top), ("TextTop", .textTop),
       ("Middle", .middle), ("Bottom", .bottom), ("TextBottom", .textBottom)] (by decide +kernel)
      (by
        intro x hx ts
        simp only [List.mem_cons, List.not_mem_nil, or_false] at hx
        rcases hx with rfl | rfl
        · exact length_field asVerticalAlign "Length" .length (fun _ => rfl) ts
        · exact percentage_field asVerticalAlign "Percentage" .percentage (fun _ => rfl) ts)
      (by simp [asVerticalAlign])
  · exact derives_of (g := asLengthOrPercentage) [("Length", "SpecifiedLength", SpecifiedLength.parse.map .length),
      ("Percentage", "Percentage", parsePercentage.map .percentage)] [] (by decide +kernel)
      (by
        intro x hx ts
        simp only [List.mem_cons, List.not_mem_nil, or_false] at hx
        rcases hx with rfl | rfl
        · exact length_field asLengthOrPercentage "Length" .length (fun _ => rfl) ts
        · exact percentage_field asLengthOrPercentage "Percentage" .percentage (fun _ => rfl) ts)
      (by simp)
  · exact derives_of (g := asLengthOrPercentageOrAuto) [("Length", "SpecifiedLength", SpecifiedLength.parse.map .length),
      ("Percentage", "Percentage", parsePercentage.map .percentage)] [("Auto", .auto)] (by decide +kernel)
      (by
        intro x hx ts
        simp only [List.mem_cons, List.not_mem_nil, or_false] at hx
        rcases hx with rfl | rfl
        · exact length_field asLengthOrPercentageOrAuto "Length" .length (fun _ => rfl) ts
        · exact percentage_field asLengthOrPercentageOrAuto "Percentage" .percentage (fun _ => rfl) ts)
      (by simp [asLengthOrPercentageOrAuto])
  · exact derives_of (g := asLengthOrPercentageOrNumber) [("Length", "SpecifiedLength", SpecifiedLength.parse.map .length),
      ("Percentage", "Percentage", parsePercentage.map .percentage), ("Number", "Number", parseNumber.map .number)] []
      (by decide +kernel)
      (by
        intro x hx ts
        simp only [List.mem_cons, List.not_mem_nil, or_false] at hx
        rcases hx with rfl | rfl | rfl
        · exact length_field asLengthOrPercentageOrNumber "Length" .length (fun _ => rfl) ts
        · exact percentage_field asLengthOrPercentageOrNumber "Percentage" .percentage (fun _ => rfl) ts
        · exact number_field asLengthOrPercentageOrNumber "Number" .number (fun _ => rfl) ts)
      (by simp)

/-! ## Examples -/

-- `super` is read as `VerticalAlign::Super`, `2em` by the variant `Length`, `50%` by `Percentage`
example : ∃ f, parse specifiedVerticalAlignDecl = .ok f ∧
    f.run fieldParsers [.ident "super".toList] = some (⟨some "Super", []⟩, []) ∧
    f.run fieldParsers [.dimension 2 "EM".toList, .delim ','] =
      some (⟨some "Length", [("0", .length (.em 2))]⟩, [.delim ',']) ∧
    f.run fieldParsers [.percentage (1 / 2)] = some (⟨some "Percentage", [("0", .ratio (1 / 2))]⟩, []) ∧
    f.run fieldParsers [.ident "Super".toList] = none := by
  refine ⟨_, rfl, ?_⟩
  decide +kernel

-- a struct with named fields, a struct without fields, a variant with two fields
example : parse ⟨"Point", [], .struct (.named [("x", "f32")])⟩ = .error .panicked ∧
    parse ⟨"Auto", [], .struct .unit⟩ = .ok ⟨[], [("auto".toList, none)]⟩ ∧
    parse ⟨"Pair", [], .enum [⟨"Two", .unnamed ["f32", "f32"]⟩]⟩ = .error .unimplemented := by decide +kernel

-- `VerticalAlign` from `SpecifiedVerticalAlign`: a length in `em` is converted, a keyword kept
example : ∃ f, fromSpecified ⟨"VerticalAlign", [], .enum [⟨"Super", .unit⟩, ⟨"Length", .unnamed ["Length"]⟩]⟩ = .ok f ∧
    f.specifiedName = "SpecifiedVerticalAlign" ∧
    f.run (fun t (x : ℚ) => if t = "Length" then x * 16 else x) ⟨some "Length", [("0", 2)]⟩ =
      some ⟨some "Length", [("0", 32)]⟩ ∧
    f.run (fun _ (x : ℚ) => x * 16) ⟨some "Super", []⟩ = some ⟨some "Super", []⟩ := by
  refine ⟨_, rfl, ?_⟩
  decide +kernel

-- `SpecifiedLength` (style/values/length.rs 30-34): two conversions
example : fromVariants ⟨"SpecifiedLength", [], .enum [⟨"Absolute", .unnamed ["Length"]⟩, ⟨"Em", .unnamed ["f32"]⟩]⟩ =
      .ok [("Length", "Absolute"), ("f32", "Em")] ∧
    into [("Length", "Absolute"), ("f32", "Em")] "f32" (3 : ℚ) = some ⟨some "Em", [("0", 3)]⟩ ∧
    fromVariants lineStyleDecl = .error .panicked := by decide +kernel

end Sinab.Derive
