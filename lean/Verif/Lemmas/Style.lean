import Verif.Spec.Style
import Mathlib.Tactic.Ring

namespace Sinab

/-! ### Setting values -/

theorem Style.set_val_same (s : Style) (p : Longhand) (v : p.Comp) : (s.set p v).val p = v := by
  simp [Style.set]

theorem Style.set_val_ne (s : Style) {p q : Longhand} (v : p.Comp) (h : q ≠ p) :
    (s.set p v).val q = s.val q := by
  simp [Style.set, Function.update_of_ne h]

@[simp] theorem Style.set_specifiedDisplay (s : Style) (p : Longhand) (v : p.Comp) :
    (s.set p v).specifiedDisplay = s.specifiedDisplay := rfl

/-! ### One declaration -/

/-- value of a declaration for its own longhand -/
def Decl.valueOf (parent : Style) (fs : ℚ) : (d : Decl) → d.longhand.Comp
  | .value p v => p.computedValue parent fs v
  | .cssWide p .initial => p.initial
  | .cssWide p .inherit => parent.val p
  | .cssWide p .unset => p.defaultValue parent

/-- value of a declaration for `p` if it is about `p` -/
def Decl.at (parent : Style) (fs : ℚ) (p : Longhand) (d : Decl) : Option p.Comp :=
  if h : d.longhand = p then some (h ▸ d.valueOf parent fs) else none

theorem Decl.at_eq_some (parent : Style) (fs : ℚ) (p : Longhand) (d : Decl) (v : p.Comp) :
    d.at parent fs p = some v ↔ Says parent fs d p v := by
  constructor
  · intro h
    unfold Decl.at at h
    split at h
    · rename_i hp
      subst hp
      simp only [Option.some.injEq] at h
      subst h
      cases d with
      | value p x => exact .value p x
      | cssWide p k => cases k
                       · exact .inherit p
                       · exact .initial p
                       · exact .unset p
    · cases h
  · intro h
    cases h <;> simp [Decl.at, Decl.longhand, Decl.valueOf]

theorem Decl.at_isSome (parent : Style) (fs : ℚ) (p : Longhand) (d : Decl) :
    (d.at parent fs p).isSome = decide (d.longhand = p) := by
  unfold Decl.at
  split <;> simp_all

theorem Longhand.inherited_iff (p : Longhand) : p.inherited = true ↔ p ∈ inheritedLonghands := by
  cases p <;> decide

theorem cascadeCssWide_eq (p : Longhand) (k : CssWideKeyword) (t parent : Style) (fs : ℚ) :
    p.cascadeCssWide k t parent = t.set p ((Decl.cssWide p k).valueOf parent fs) := by
  cases k
  · simp [Longhand.cascadeCssWide, Decl.valueOf]
  · simp [Longhand.cascadeCssWide, Decl.valueOf]
  · simp only [Longhand.cascadeCssWide, Decl.valueOf, Longhand.defaultValue]
    by_cases h : p.inherited = true
    · simp [h, (Longhand.inherited_iff p).1 h]
    · have h' : p ∉ inheritedLonghands := fun h' => h ((Longhand.inherited_iff p).2 h')
      simp only [h', if_false]
      simp only [Bool.not_eq_true] at h
      simp [h]

theorem SpecifiedLength.compute_eq (fs : ℚ) (l : SpecifiedLength) : l.compute fs = l.inPx fs := by
  cases l <;> simp [SpecifiedLength.compute, SpecifiedLength.inPx, mul_comm]

theorem early_eq (parent : Style) (fs : ℚ) (p : Longhand) (v : p.Spec) :
    p.earlyFromSpecified parent v =
      if p.isEarly then some (p.computedValue parent fs v) else none := by
  cases p
  case fontSize =>
    cases v with
    | absolute px => simp [Longhand.earlyFromSpecified, Longhand.isEarly,
        Longhand.computedValue, SpecifiedLength.inPx]
    | em v =>
      simp only [Longhand.earlyFromSpecified, Longhand.isEarly,
        Longhand.computedValue, SpecifiedLength.inPx, if_true]
      exact congrArg some (mul_comm (G := ℚ) _ _)
  all_goals simp [Longhand.earlyFromSpecified, Longhand.isEarly]

theorem late_eq (parent t : Style) (p : Longhand) (v : p.Spec) :
    p.fromSpecified parent t v =
      if p.isEarly then none else some (p.computedValue parent (t.val .fontSize) v) := by
  cases p <;> first
    | rfl
    | (cases v <;> simp [Longhand.fromSpecified, Longhand.isEarly, Longhand.computedValue,
        SpecifiedLengthOrPercentage.compute, SpecifiedLengthOrPercentageOrAuto.compute,
        SpecifiedLengthOrPercentageOrNumber.compute, SpecifiedVerticalAlign.compute,
        CssColor.computeColor, SpecifiedLength.compute_eq])

theorem Decl.early_eq (parent t : Style) (fs : ℚ) (d : Decl) :
    d.ifEarlyCascadeInto parent t =
      if d.longhand.isEarly then t.set d.longhand (d.valueOf parent fs) else t := by
  cases d with
  | value p v =>
    simp only [Decl.ifEarlyCascadeInto, Sinab.early_eq parent fs, Decl.longhand]
    split <;> simp_all [Decl.valueOf]
  | cssWide p k =>
    simp only [Decl.ifEarlyCascadeInto, Decl.longhand, cascadeCssWide_eq p k t parent fs]
    rfl

theorem Decl.late_eq (parent t : Style) (d : Decl) :
    d.ifLateCascadeInto parent t =
      if d.longhand.isEarly then t
      else t.set d.longhand (d.valueOf parent (t.val .fontSize)) := by
  cases d with
  | value p v =>
    simp only [Decl.ifLateCascadeInto, Sinab.late_eq, Decl.longhand]
    split <;> simp_all [Decl.valueOf]
  | cssWide p k =>
    simp only [Decl.ifLateCascadeInto, Decl.longhand, cascadeCssWide_eq p k t parent (t.val .fontSize)]
    by_cases h : p.isEarly = true
    · simp [h]
    · simp only [Bool.not_eq_true] at h
      simp only [h, Bool.not_false, if_true, Bool.false_eq_true, if_false]

theorem Style.set_at (parent t : Style) (fs : ℚ) (d : Decl) (p : Longhand) :
    (t.set d.longhand (d.valueOf parent fs)).val p = (d.at parent fs p).getD (t.val p) := by
  unfold Decl.at
  split
  · rename_i h; subst h; simp [Style.set_val_same]
  · rename_i h; simp [Style.set_val_ne _ _ (fun e => h e.symm)]

/-! ### A list of declarations -/

theorem foldl_early (parent : Style) (fs : ℚ) (L : List Decl) (t : Style) (p : Longhand) :
    (L.foldl (Phase.early.cascade parent) t).val p =
      if p.isEarly then (L.filterMap (Decl.at parent fs p)).getLast?.getD (t.val p)
      else t.val p := by
  induction L generalizing t with
  | nil => simp
  | cons d L ih =>
    simp only [List.foldl_cons]
    rw [ih]
    have hstep : (Phase.early.cascade parent t d).val p =
        if p.isEarly then (d.at parent fs p).getD (t.val p) else t.val p := by
      show (d.ifEarlyCascadeInto parent t).val p = _
      rw [Decl.early_eq parent t fs]
      by_cases hd : d.longhand.isEarly = true
      · rw [if_pos hd, Style.set_at]
        split
        · rfl
        · rename_i hp
          have : d.longhand ≠ p := fun e => hp (e ▸ hd)
          simp [Decl.at, this]
      · rw [if_neg hd]
        split
        · rename_i hp
          have : d.longhand ≠ p := fun e => hd (e ▸ hp)
          simp [Decl.at, this]
        · rfl
    rw [hstep]
    cases hp : p.isEarly
    · simp
    · simp only [if_true, List.filterMap_cons]
      cases h : d.at parent fs p with
      | none => simp
      | some v => simp [List.getLast?_cons]

theorem foldl_late (parent : Style) (L : List Decl) (t : Style) (p : Longhand) :
    (L.foldl (Phase.late.cascade parent) t).val p =
      if p.isEarly then t.val p
      else (L.filterMap (Decl.at parent (t.val .fontSize) p)).getLast?.getD (t.val p) := by
  induction L generalizing t with
  | nil => simp
  | cons d L ih =>
    simp only [List.foldl_cons]
    rw [ih]
    have hstep : ∀ q, (Phase.late.cascade parent t d).val q =
        if q.isEarly then t.val q else (d.at parent (t.val .fontSize) q).getD (t.val q) := by
      intro q
      show (d.ifLateCascadeInto parent t).val q = _
      rw [Decl.late_eq parent t]
      by_cases hd : d.longhand.isEarly = true
      · rw [if_pos hd]
        split
        · rfl
        · rename_i hp
          have : d.longhand ≠ q := fun e => hp (e ▸ hd)
          simp [Decl.at, this]
      · rw [if_neg hd, Style.set_at]
        split
        · rename_i hp
          have : d.longhand ≠ q := fun e => hd (e ▸ hp)
          simp [Decl.at, this]
        · rfl
    have hfs : (Phase.late.cascade parent t d).val .fontSize = t.val .fontSize := by
      rw [hstep]; rfl
    rw [hstep, hfs]
    cases hp : p.isEarly
    · simp only [Bool.false_eq_true, if_false, List.filterMap_cons]
      cases h : d.at parent (t.val .fontSize) p with
      | none => simp
      | some v => simp [List.getLast?_cons]
    · simp

theorem foldl_specifiedDisplay (ph : Phase) (parent : Style) (L : List Decl) (t : Style) :
    (L.foldl (ph.cascade parent) t).specifiedDisplay = t.specifiedDisplay := by
  induction L generalizing t with
  | nil => rfl
  | cons d L ih =>
    simp only [List.foldl_cons]
    rw [ih]
    cases ph
    · show (d.ifEarlyCascadeInto parent t).specifiedDisplay = _
      rw [Decl.early_eq parent t 0]; split <;> rfl
    · show (d.ifLateCascadeInto parent t).specifiedDisplay = _
      rw [Decl.late_eq parent t]; split <;> rfl

/-! ### Fix-ups -/

theorem Style.displayFixup_val (s : Style) (p : Longhand) :
    s.displayFixup.val p = if p = .display then p.adjusted s (s.val p) else s.val p := by
  unfold Style.displayFixup
  have hc : ((s.val .position).isAbsolutelyPositioned || (s.val .float).isFloating) = true ↔
      s.val .position = Position.absolute ∨ s.val .float ≠ Float'.none := by
    cases s.val .position <;> cases s.val .float <;>
      simp [Position.isAbsolutelyPositioned, Float'.isFloating]
  simp only [hc]
  by_cases hp : p = .display
  · subst hp
    simp only [if_true, Longhand.adjusted]
    by_cases h : s.val .position = Position.absolute ∨ s.val .float ≠ Float'.none
    · simp only [h, if_true]
      cases hd : s.val .display with
      | none => simp [Display.blockify, hd]
      | contents => simp [Display.blockify, hd]
      | generatingBox o i =>
        split
        · simp [Style.set, Display.blockify]
        · rename_i h2
          simp only [ne_eq, not_not, Display.blockify] at h2
          exact hd.trans h2.symm
    · simp only [h, if_false]
      cases s.val .display <;> rfl
  · simp only [hp, if_false]
    split
    · split
      · exact Style.set_val_ne _ _ hp
      · rfl
    · rfl

theorem Style.displayFixup_specified (s : Style) :
    s.displayFixup.specifiedDisplay = s.val .display := by
  unfold Style.displayFixup
  dsimp only
  split
  · split <;> rfl
  · rfl

theorem fixups_val (s : Style) (p : Longhand) :
    s.postCascadeFixups.val p = p.adjusted s (s.val p) := by
  have hb : ∀ (w : LineWidth) (l : LineStyle),
      lineWidthFixup w l = if l = LineStyle.none then .length 0 else w := by
    intro w l; cases l <;> simp [lineWidthFixup]
  unfold Style.postCascadeFixups
  dsimp only
  rw [Style.displayFixup_val]
  cases p <;> simp [Longhand.adjusted, Style.set, hb]

theorem Style.adjusted_congr {s t : Style} (h : ∀ p, p = .position ∨ p = .float ∨
    p = .borderTopStyle ∨ p = .borderRightStyle ∨ p = .borderBottomStyle ∨ p = .borderLeftStyle →
    s.val p = t.val p) (p : Longhand) (v : p.Comp) : p.adjusted s v = p.adjusted t v := by
  cases p <;> simp [Longhand.adjusted, h]

theorem adjusted_fixups (s : Style) (p : Longhand) (v : p.Comp) :
    p.adjusted s.postCascadeFixups v = p.adjusted s v := by
  apply Style.adjusted_congr
  intro q hq
  rw [fixups_val]
  rcases hq with h | h | h | h | h | h <;> subst h <;> rfl

end Sinab
