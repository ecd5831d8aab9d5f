import Verif.Spec.Specificity
import Verif.Props.UserAgent

/-! Which of several rules about an element decides (C84). -/

namespace Sinab

theorem HowMany.unique {P : SimpleSel → Prop} {l : List SimpleSel} {j k : Nat} (h : HowMany P l j)
    (h' : HowMany P l k) : j = k := by
  induction h generalizing k with
  | nil => cases h'; rfl
  | yes hp _ ih => cases h' with
    | yes _ h2 => rw [ih h2]
    | no hn _ => exact absurd hp hn
  | no hp _ ih => cases h' with
    | yes hn _ => exact absurd hn hp
    | no _ h2 => exact ih h2

theorem howMany_sum {P : SimpleSel → Prop} (f : SimpleSel → Nat) (h1 : ∀ x, P x → f x = 1) (h0 : ∀ x, ¬ P x → f x = 0)
    (l : List SimpleSel) : HowMany P l (l.map f).sum := by
  induction l with
  | nil => exact .nil
  | cons x l ih =>
    by_cases hx : P x
    · have := HowMany.yes hx ih
      rwa [Nat.add_comm, ← h1 x hx] at this
    · have := HowMany.no hx ih
      rw [List.map_cons, List.sum_cons, h0 x hx, Nat.zero_add]
      exact this

theorem consists_parts (s : ComplexSel) : s.Consists (s.parts.map SelPart.simple) := by
  induction s with
  | compound ps => exact .compound ps
  | comb left k ps ih =>
    have := ComplexSel.Consists.comb left k ps _ ih
    simpa [ComplexSel.parts] using this

theorem ComplexSel.Consists.unique {s : ComplexSel} {l l' : List SimpleSel} (h : s.Consists l) (h' : s.Consists l') :
    l = l' := by
  induction h generalizing l' with
  | compound ps => cases h'; rfl
  | comb left k ps l _ ih => cases h' with | comb _ _ _ l2 h2 => rw [ih h2]

theorem ComplexSel.Counts.unique {s : ComplexSel} {a b c a' b' c' : Nat} (h : s.Counts a b c)
    (h' : s.Counts a' b' c') : a = a' ∧ b = b' ∧ c = c' := by
  obtain ⟨l, x, y, z, h1, h2, h3, h4, rfl, rfl, rfl⟩ := h
  obtain ⟨l', x', y', z', k1, k2, k3, k4, rfl, rfl, rfl⟩ := h'
  cases h1.unique k1
  rw [h2.unique k2, h3.unique k3, h4.unique k4]
  exact ⟨rfl, rfl, rfl⟩

/-- the three numbers, and the number that the rules are sorted by -/
theorem counts_specificity (s : ComplexSel) : ∃ a b c, s.Counts a b c ∧ a ≤ 1023 ∧ b ≤ 1023 ∧ c ≤ 1023 ∧
    s.specificity = a * 2 ^ 20 + b * 2 ^ 10 + c := by
  refine ⟨_, _, _, ⟨_, _, _, _, consists_parts s, howMany_sum (fun x => x.weight.1) ?_ ?_ _,
    howMany_sum (fun x => x.weight.2.1) ?_ ?_ _, howMany_sum (fun x => x.weight.2.2) ?_ ?_ _, rfl, rfl, rfl⟩,
    min_le_right _ _, min_le_right _ _, min_le_right _ _, ?_⟩
  any_goals
    intro x
    cases x <;> simp [SimpleSel.IsId, SimpleSel.IsName, SimpleSel.IsAny, SimpleSel.weight]
  simp only [ComplexSel.specificity, List.map_map, Function.comp_def]

/-- C84: rules are sorted by the numbers of ids, of classes, attributes and pseudo-classes, and of element names in
their selectors. -/
theorem C84_order (s t : ComplexSel) : t.specificity < s.specificity ↔ MoreSpecific s t := by
  obtain ⟨a, b, c, h1, ha, hb, hc, e1⟩ := counts_specificity s
  obtain ⟨a', b', c', h2, ha', hb', hc', e2⟩ := counts_specificity t
  rw [e1, e2]
  constructor
  · intro h
    rcases Nat.lt_trichotomy a' a with h3 | rfl | h3
    · exact .ids h1 h2 h3
    · rcases Nat.lt_trichotomy b' b with h4 | rfl | h4
      · exact .classes h1 h2 h4
      · exact .names h1 h2 (by omega)
      · omega
    · omega
  · intro h
    cases h with
    | ids k1 k2 h => obtain ⟨rfl, rfl, rfl⟩ := h1.unique k1; obtain ⟨rfl, rfl, rfl⟩ := h2.unique k2; omega
    | classes k1 k2 h => obtain ⟨rfl, rfl, rfl⟩ := h1.unique k1; obtain ⟨e, rfl, rfl⟩ := h2.unique k2; omega
    | names k1 k2 h => obtain ⟨rfl, rfl, rfl⟩ := h1.unique k1; obtain ⟨e, e', rfl⟩ := h2.unique k2; omega

/-- C84: rules whose selectors have the same three numbers stay in order of appearance (C24). -/
theorem C84_same (s t : ComplexSel) : t.specificity = s.specificity ↔ AsSpecific s t := by
  obtain ⟨a, b, c, h1, ha, hb, hc, e1⟩ := counts_specificity s
  obtain ⟨a', b', c', h2, ha', hb', hc', e2⟩ := counts_specificity t
  rw [e1, e2]
  constructor
  · intro h
    obtain rfl : a = a' := by omega
    obtain rfl : b = b' := by omega
    obtain rfl : c = c' := by omega
    exact ⟨a, b, c, h1, h2⟩
  · rintro ⟨x, y, z, k1, k2⟩
    obtain ⟨rfl, rfl, rfl⟩ := h1.unique k1
    obtain ⟨rfl, rfl, rfl⟩ := h2.unique k2
    rfl

section
variable {C : CssColors} {tokenize : AttrTokenizer} {ua author : List (cssEngine.Sel × Block)} {d : Doc} {n : NodeId}
  {parent : Option Style} {attr : Option Block} {s : Style} {e : ElementData}

/-- the `j`-th declaration of the `i`-th rule, whose selector is `sel`, is `w` and applies to `n` -/
def RuleSays (author : List (cssEngine.Sel × Block)) (d : Doc) (n : NodeId) (i j : Nat) (sel : ComplexSel)
    (w : Decl) (imp : Bool) : Prop :=
  ∃ b : Block, author[i]? = some (sel, b) ∧ d.matchesSelector sel n = .ok true ∧ b.entries[j]? = some (w, imp)

/-- the `j`-th declaration of the style attribute is `w` -/
def AttrSays (attr : Option Block) (j : Nat) (w : Decl) (imp : Bool) : Prop :=
  ∃ b : Block, attr = some b ∧ b.entries[j]? = some (w, imp)

/-- the rank of a declaration of a rule among those of the rules: important or not, specificity of the selector, order
of the rules, order in the rule -/
def Outranks (imp : Bool) (sel : ComplexSel) (i j : Nat) (imp' : Bool) (sel' : ComplexSel) (i' j' : Nat) : Prop :=
  (imp = true ∧ imp' = false) ∨ (imp = imp' ∧ (MoreSpecific sel sel' ∨
    (AsSpecific sel sel' ∧ (i' < i ∨ (i' = i ∧ j' < j)))))

/-- C84: a declaration of a rule decides if it outranks all others of rules, and the style attribute says nothing, or
says something that is not important while the rule is.  (The exceptions are those of C68.) -/
theorem C84_rule (hua : StyleSet.addStylesheet C ⟨[]⟩ userAgentCss = .ok ⟨ua⟩)
    (h : StyledElement C tokenize ua author d n parent attr s) (he : (d.node n).data = .element e) (p : Longhand)
    (h1 : ¬ (p = .display ∧ HiddenInput e)) (h2 : ¬ (p = .whiteSpace ∧ e.name.localName = "br"))
    {i j : Nat} {sel : ComplexSel} {w : Decl} {imp : Bool}
    (hw : RuleSays author d n i j sel w imp) (hp : w.longhand = p)
    (hr : ∀ i' j' sel' w' imp', RuleSays author d n i' j' sel' w' imp' → w'.longhand = p →
      (i' = i ∧ j' = j) ∨ Outranks imp sel i j imp' sel' i' j')
    (ha : ∀ j' w' imp', AttrSays attr j' w' imp' → w'.longhand = p → imp = true ∧ imp' = false) :
    ∃ v, Says (parent.getD Style.initial) (s.val .fontSize) w p v ∧ s.val p = p.adjusted s v := by
  obtain ⟨b, hb, hm, hj⟩ := hw
  refine C68_author hua h he p (k := [if imp then 2 else 1, 0, cssEngine.specificity sel, i, j])
    ⟨Applies.author hb hm hj, hp, ?_⟩ h1 h2
  intro k' d' hk hd
  cases hk with
  | ua hu _ _ => simp at hu
  | @author i' j' sel' b' decl imp' h3 h4 h5 =>
    rcases hr i' j' sel' d' imp' ⟨b', h3, h4, h5⟩ hd with ⟨rfl, rfl⟩ | ho
    · left
      rw [hb] at h3
      cases h3
      rw [hj] at h5
      cases h5
      exact ⟨rfl, rfl⟩
    · right
      rcases ho with ⟨rfl, rfl⟩ | ⟨rfl, ho⟩
      · exact List.Lex.rel (by decide)
      · refine List.Lex.cons (List.Lex.cons ?_)
        rcases ho with ho | ⟨ho, ho'⟩
        · exact List.Lex.rel ((C84_order _ _).2 ho)
        · rw [show cssEngine.specificity sel' = cssEngine.specificity sel from (C84_same _ _).2 ho]
          refine List.Lex.cons ?_
          rcases ho' with hi | ⟨rfl, hi⟩
          · exact List.Lex.rel hi
          · exact List.Lex.cons (List.Lex.rel hi)
  | @attr j' b' decl imp' h3 h4 =>
    obtain ⟨rfl, rfl⟩ := ha j' d' imp' ⟨b', h3, h4⟩ hd
    exact .inr (List.Lex.rel (by decide))

/-- C84: a declaration of the style attribute decides against all rules, except that important declarations are
outranked only by important ones. -/
theorem C84_attribute (hua : StyleSet.addStylesheet C ⟨[]⟩ userAgentCss = .ok ⟨ua⟩)
    (h : StyledElement C tokenize ua author d n parent attr s) (he : (d.node n).data = .element e) (p : Longhand)
    (h1 : ¬ (p = .display ∧ HiddenInput e)) (h2 : ¬ (p = .whiteSpace ∧ e.name.localName = "br"))
    {j : Nat} {w : Decl} {imp : Bool} (hw : AttrSays attr j w imp) (hp : w.longhand = p)
    (hr : ∀ i' j' sel' w' imp', RuleSays author d n i' j' sel' w' imp' → w'.longhand = p → imp' = true → imp = true)
    (ha : ∀ j' w' imp', AttrSays attr j' w' imp' → w'.longhand = p →
      j' = j ∨ (imp = true ∧ imp' = false) ∨ (imp = imp' ∧ j' < j)) :
    ∃ v, Says (parent.getD Style.initial) (s.val .fontSize) w p v ∧ s.val p = p.adjusted s v := by
  obtain ⟨b, hb, hj⟩ := hw
  refine C68_author hua h he p (k := [if imp then 2 else 1, 1, 0, 0, j]) ⟨Applies.attr hb hj, hp, ?_⟩ h1 h2
  intro k' d' hk hd
  cases hk with
  | ua hu _ _ => simp at hu
  | @author i' j' sel' b' decl imp' h3 h4 h5 =>
    right
    have := hr i' j' sel' d' imp' ⟨b', h3, h4, h5⟩ hd
    cases imp <;> cases imp'
    · exact List.Lex.cons (List.Lex.rel (by decide))
    · exact absurd (this rfl) (by decide)
    · exact List.Lex.rel (by decide)
    · exact List.Lex.cons (List.Lex.rel (by decide))
  | @attr j' b' decl imp' h3 h4 =>
    rcases ha j' d' imp' ⟨b', h3, h4⟩ hd with rfl | ⟨rfl, rfl⟩ | ⟨rfl, hi⟩
    · left
      rw [hb] at h3
      cases h3
      rw [hj] at h4
      cases h4
      exact ⟨rfl, rfl⟩
    · exact .inr (List.Lex.rel (by decide))
    · exact .inr (List.Lex.cons (List.Lex.cons (List.Lex.cons (List.Lex.cons (List.Lex.rel hi)))))

end

/-! ## Examples -/

/-- `p:empty { margin-top: 3px; margin-left: auto !important } p { font-size: 2em; margin-top: 1em }` -/
def contest : List (cssEngine.Sel × Block) :=
  [(ComplexSel.compound [⟨false, .type "p"⟩, ⟨false, .empty⟩], demoBlock₂),
   (ComplexSel.compound [⟨false, .type "p"⟩], demoBlock₁)]

-- one id outweighs 2000 classes; 2000 classes count as 1023
example : MoreSpecific (.compound [⟨false, .id ['a']⟩]) (.compound (List.replicate 2000 ⟨false, .cls ['a']⟩)) ∧
    AsSpecific (.compound (List.replicate 1023 ⟨true, .root⟩)) (.compound (List.replicate 2000 ⟨false, .cls ['a']⟩)) :=
  ⟨(C84_order _ _).1 (by decide +kernel), (C84_same _ _).1 (by decide +kernel)⟩

theorem contest_more : MoreSpecific (.compound [⟨false, .type "p"⟩, ⟨false, .empty⟩]) (.compound [⟨false, .type "p"⟩]) :=
  (C84_order _ _).1 (by decide +kernel)

-- the first rule decides about the margin of `<p></p>`
example {tokenize : AttrTokenizer} {ua : List (cssEngine.Sel × Block)} {s : Style}
    (hua : StyleSet.addStylesheet noColors ⟨[]⟩ userAgentCss = .ok ⟨ua⟩)
    (h : StyledElement noColors tokenize ua contest demoDoc 0 none none s) :
    s.val .marginTop = .length 3 := by
  obtain ⟨v, h1, h2⟩ := C84_rule hua h (e := ⟨⟨none, nsHtml, "p"⟩, []⟩) rfl .marginTop (by simp) (by simp)
    (i := 0) (j := 0) (sel := .compound [⟨false, .type "p"⟩, ⟨false, .empty⟩])
    (w := .value .marginTop (.length (.absolute 3))) (imp := false)
    ⟨demoBlock₂, rfl, by decide +kernel, rfl⟩ rfl (by
      rintro i' j' sel' w' imp' ⟨b', hb, -, hj⟩ hp
      rcases i' with _ | _ | i'
      all_goals simp only [contest, List.getElem?_cons_zero, List.getElem?_cons_succ, Option.some.injEq,
        List.getElem?_nil, reduceCtorEq] at hb
      all_goals obtain ⟨rfl, rfl⟩ := hb
      all_goals rcases j' with _ | _ | j'
      all_goals simp only [demoBlock₁, demoBlock₂, Block.entries, List.zip_cons_cons, List.zip_nil_right,
        List.getElem?_cons_zero, List.getElem?_cons_succ,
        Option.some.injEq, Prod.mk.injEq, List.getElem?_nil, reduceCtorEq] at hj
      all_goals obtain ⟨rfl, rfl⟩ := hj
      all_goals simp only [Decl.longhand, reduceCtorEq] at hp
      · exact .inl ⟨rfl, rfl⟩
      · exact .inr (.inr ⟨rfl, .inl contest_more⟩))
    (by rintro j' w' imp' ⟨b, hb, -⟩; cases hb)
  cases h1
  exact h2

end Sinab
