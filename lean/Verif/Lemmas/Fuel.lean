import Verif.Lemmas.ConstructFuel

/-! More fuel does not change the outcome of the box construction, be it a result or a
panic. -/

namespace Sinab

/-- `a` ran out of fuel, or is `b` -/
def Below {α : Type} (a b : Except Panic α) : Prop := a = .error .outOfFuel ∨ a = b

namespace Below

theorem refl {α : Type} (a : Except Panic α) : Below a a := .inr rfl

theorem trans {α : Type} {a b c : Except Panic α} (h1 : Below a b) (h2 : Below b c) : Below a c := by
  rcases h1 with h1 | rfl
  · exact .inl h1
  · exact h2

theorem bind {α β : Type} {a b : Except Panic α} {f g : α → Except Panic β} (h : Below a b)
    (hf : ∀ x, Below (f x) (g x)) : Below (a >>= f) (b >>= g) := by
  rcases h with rfl | rfl
  · exact .inl rfl
  · cases a with
    | error p => exact .inr rfl
    | ok x => exact hf x

theorem slots {α : Type} {a b : Except Panic α} (s : List (Option NodeId)) (h : Below a b) :
    Below (withSlots s a) (withSlots s b) := by
  rcases h with rfl | rfl
  · exact .inl rfl
  · exact .refl _

theorem eq {α : Type} {a b : Except Panic α} (h : Below a b) (ha : a ≠ .error .outOfFuel) : a = b := by
  rcases h with h | h
  · exact absurd h ha
  · exact h

end Below

theorem unsetNext_below {d : Doc} {node : Node} : ∀ (n : Nat) (sib : NodeId),
    Below (unsetNext d node n sib) (unsetNext d node (n + 1) sib)
  | 0, _ => .inl rfl
  | n + 1, sib => by
    rw [unsetNext, unsetNext]
    refine .bind (.refl _) fun m => ?_
    split
    · exact .refl _
    · split
      · exact unsetNext_below n _
      · exact .refl _

theorem unsetLoop_below {d : Doc} {base : NodeId} : ∀ (n : Nat) (x : NodeId) (L : LayoutData),
    Below (unsetLoop d base n x L) (unsetLoop d base (n + 1) x L)
  | 0, _, _ => .inl rfl
  | n + 1, x, L => by
    rw [unsetLoop, unsetLoop]
    refine .bind (.refl _) fun m => ?_
    have asc : ∀ (L : LayoutData), Below (do
        let (next, sib) ← unsetNext d m n x
        if sib = base then return L else unsetLoop d base n next L) (do
        let (next, sib) ← unsetNext d m (n + 1) x
        if sib = base then return L else unsetLoop d base (n + 1) next L) := by
      intro L
      refine .bind (unsetNext_below n x) fun p => ?_
      simp only
      split
      · exact .refl _
      · exact unsetLoop_below n _ _
    simp only
    split
    · split
      · exact .refl _
      · split
        · exact unsetLoop_below n _ _
        · exact asc _
    · exact asc _

/-- more fuel does not change an outcome -/
structure Grows (C : BoxContext) (n : Nat) : Prop where
  trav : ∀ st x L B, Below (traverse C n st x L B) (traverse C (n + 1) st x L B)
  elem : ∀ id e st L B, Below (traverseElement C n id e st L B) (traverseElement C (n + 1) id e st L B)
  handle : ∀ st o i id L B, Below (handleElement C n st o i id L B) (handleElement C (n + 1) st o i id L B)
  cons : ∀ st id L, Below (constructContainer C n st id L) (constructContainer C (n + 1) st id L)
  boxes : ∀ bs L, Below (finishBoxes C n bs L) (finishBoxes C (n + 1) bs L)
  box : ∀ b L, Below (finishBox C n b L) (finishBox C (n + 1) b L)

theorem grows (C : BoxContext) : ∀ n, Grows C n
  | 0 => by
    constructor <;> intros <;> left <;>
      simp [traverse, traverseElement, handleElement, constructContainer, finishBoxes, finishBox]
  | n + 1 => by
    have ih := grows C n
    constructor
    · intro st x L B
      cases x with
      | none => exact .inr (by simp [traverse])
      | some x =>
        rw [traverse, traverse]
        refine .bind (.refl _) fun m => .bind (.slots _ ?_) fun p => ih.trav _ _ _ _
        split
        · exact .refl _
        · exact ih.elem _ _ _ _ _
        · exact .refl _
    · intro id e st L B
      rw [traverseElement, traverseElement]
      refine .bind (.refl _) fun s => ?_
      split
      · exact .refl _
      · split
        · exact .bind (unsetLoop_below _ _ _) fun _ => .refl _
        · exact .bind (.refl _) fun _ => .bind (.refl _) fun _ => ih.trav _ _ _ _
        · exact .bind (.refl _) fun _ => ih.handle _ _ _ _ _ _
    · intro st o i id L B
      unfold handleElement
      refine .slots _ ?_
      split
      · split
        · exact .bind (.refl _) fun m => .bind (ih.trav _ _ _ _) fun p => .refl _
        · exact .refl _
      · split
        · split
          · exact .refl _
          · exact .bind (ih.cons _ _ _) fun p => .refl _
        · split
          · simp only
            split
            · exact .refl _
            · exact .bind (ih.cons _ _ _) fun p => .refl _
          · exact .refl _
    · intro st id L
      rw [constructContainer, constructContainer]
      refine .bind (.refl _) fun m => .bind (ih.trav _ _ _ _) fun p => .bind (.refl _) fun u => ?_
      split
      · exact .refl _
      · split <;> exact .bind (.refl _) fun B => .bind (ih.boxes _ _) fun q => .refl _
    · intro bs L
      cases bs with
      | nil => exact .inr (by simp [finishBoxes])
      | cons b bs =>
        rw [finishBoxes, finishBoxes]
        exact .bind (.slots _ (ih.box _ _)) fun p => .bind (ih.boxes _ _) fun q => .refl _
    · intro b L
      cases b with
      | sameFormattingContextBlock st c =>
        cases c with
        | inlineFormattingContext _ _ => exact .inr (by simp [finishBox])
        | deferred id =>
          rw [finishBox, finishBox]
          exact .bind (ih.cons _ _ _) fun p => .refl _
      | _ =>
        rw [finishBox, finishBox]
        exact .bind (ih.cons _ _ _) fun p => .refl _

theorem container_below {C : BoxContext} {n m : Nat} (hm : n ≤ m) (st : Style) (id : NodeId)
    (L : LayoutData) : Below (constructContainer C n st id L) (constructContainer C m st id L) := by
  induction hm with
  | refl => exact .refl _
  | step _ ih => exact ih.trans ((grows C _).cons _ _ _)

theorem boxTree_below {C : BoxContext} {n m : Nat} (hm : n ≤ m) :
    Below (boxTree C n) (boxTree C m) := by
  unfold boxTree
  refine .bind (.refl _) fun root => .bind (.refl _) fun st => .bind ?_ fun p => .refl _
  unfold constructRoot
  split
  · exact .refl _
  · exact .bind (container_below hm _ _ _) fun p => .refl _

end Sinab
