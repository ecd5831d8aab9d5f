import Verif.Lemmas.ConstructGood

/-! More fuel does not change a result of the box construction. -/

namespace Sinab

theorem unsetNext_mono {d : Doc} {node : Node} : ∀ (n : Nat) (sib : NodeId) (r),
    unsetNext d node n sib = .ok r → unsetNext d node (n + 1) sib = .ok r
  | 0, _, _, h => by simp [unsetNext] at h
  | n + 1, sib, r, h => by
    unfold unsetNext at h
    rw [unsetNext]
    obtain ⟨m, h1, h⟩ := bind_eq_ok.1 h
    refine bind_eq_ok.2 ⟨m, h1, ?_⟩
    split at h
    · exact h
    · split at h
      · exact unsetNext_mono n _ _ h
      · simp at h

theorem unsetLoop_mono {d : Doc} {base : NodeId} : ∀ (n : Nat) (x : NodeId) (L : LayoutData) (r),
    unsetLoop d base n x L = .ok r → unsetLoop d base (n + 1) x L = .ok r
  | 0, _, _, _, h => by simp [unsetLoop] at h
  | n + 1, x, L, r, h => by
    unfold unsetLoop at h
    rw [unsetLoop]
    obtain ⟨m, h1, h⟩ := bind_eq_ok.1 h
    refine bind_eq_ok.2 ⟨m, h1, ?_⟩
    have asc : ∀ (L : LayoutData), (do
        let (next, sib) ← unsetNext d m n x
        if sib = base then return L else unsetLoop d base n next L) = .ok r → (do
        let (next, sib) ← unsetNext d m (n + 1) x
        if sib = base then return L else unsetLoop d base (n + 1) next L) = .ok r := by
      intro L h
      obtain ⟨⟨a, b⟩, h2, h⟩ := bind_eq_ok.1 h
      refine bind_eq_ok.2 ⟨(a, b), unsetNext_mono n x _ h2, ?_⟩
      simp only at h ⊢
      split at h
      · rename_i hb; rw [if_pos hb]; exact h
      · rename_i hb; rw [if_neg hb]; exact unsetLoop_mono n _ _ _ h
    simp only at h ⊢
    split at h
    · split at h
      · simp at h
      · rename_i hb
        rw [if_neg hb]
        split at h
        · exact unsetLoop_mono n _ _ _ h
        · exact asc _ h
    · exact asc _ h

/-- more fuel does not change a result -/
structure Mono (C : BoxContext) (n : Nat) : Prop where
  trav : ∀ st x L B r, traverse C n st x L B = .ok r → traverse C (n + 1) st x L B = .ok r
  elem : ∀ id e st L B r, traverseElement C n id e st L B = .ok r →
    traverseElement C (n + 1) id e st L B = .ok r
  handle : ∀ st o i id L B r, handleElement C n st o i id L B = .ok r →
    handleElement C (n + 1) st o i id L B = .ok r
  cons : ∀ st id L r, constructContainer C n st id L = .ok r →
    constructContainer C (n + 1) st id L = .ok r
  boxes : ∀ bs L r, finishBoxes C n bs L = .ok r → finishBoxes C (n + 1) bs L = .ok r
  box : ∀ b L r, finishBox C n b L = .ok r → finishBox C (n + 1) b L = .ok r

theorem mono (C : BoxContext) : ∀ n, Mono C n
  | 0 => by
    constructor <;> intros <;> rename_i h <;>
      simp [traverse, traverseElement, handleElement, constructContainer, finishBoxes, finishBox] at h
  | n + 1 => by
    have ih := mono C n
    constructor
    · intro st x L B r h
      cases x with
      | none => simpa [traverse] using h
      | some x =>
        unfold traverse at h
        rw [traverse]
        obtain ⟨m, h1, h⟩ := bind_eq_ok.1 h
        refine bind_eq_ok.2 ⟨m, h1, ?_⟩
        obtain ⟨⟨L1, B1⟩, h2, h⟩ := bind_eq_ok.1 h
        refine bind_eq_ok.2 ⟨(L1, B1), ?_, ih.trav _ _ _ _ _ h⟩
        rw [withSlots_eq_ok] at h2 ⊢
        split at h2
        · exact h2
        · exact ih.elem _ _ _ _ _ _ h2
        · exact h2
    · intro id e st L B r h
      unfold traverseElement at h
      rw [traverseElement]
      obtain ⟨s, h1, h⟩ := bind_eq_ok.1 h
      refine bind_eq_ok.2 ⟨s, h1, ?_⟩
      split at h
      · rename_i hb; rw [if_pos hb]; exact h
      · rename_i hb
        rw [if_neg hb]
        split at h
        · obtain ⟨L1, h2, h⟩ := bind_eq_ok.1 h
          exact bind_eq_ok.2 ⟨L1, unsetLoop_mono _ _ _ _ h2, h⟩
        · obtain ⟨L1, h2, h⟩ := bind_eq_ok.1 h
          refine bind_eq_ok.2 ⟨L1, h2, ?_⟩
          obtain ⟨m, h3, h⟩ := bind_eq_ok.1 h
          exact bind_eq_ok.2 ⟨m, h3, ih.trav _ _ _ _ _ h⟩
        · obtain ⟨L1, h2, h⟩ := bind_eq_ok.1 h
          exact bind_eq_ok.2 ⟨L1, h2, ih.handle _ _ _ _ _ _ _ h⟩
    · intro st o i id L B r h
      unfold handleElement at h
      unfold handleElement
      rw [withSlots_eq_ok] at h ⊢
      split at h
      · split at h
        · obtain ⟨m, h1, h⟩ := bind_eq_ok.1 h
          refine bind_eq_ok.2 ⟨m, h1, ?_⟩
          obtain ⟨p, h2, h⟩ := bind_eq_ok.1 h
          exact bind_eq_ok.2 ⟨p, ih.trav _ _ _ _ _ h2, h⟩
        · exact h
      · split at h
        · rename_i h1
          rw [if_pos h1]
          split at h
          · rename_i h2; rw [if_pos h2]; exact h
          · rename_i h2
            rw [if_neg h2]
            obtain ⟨p, h2, h⟩ := bind_eq_ok.1 h
            exact bind_eq_ok.2 ⟨p, ih.cons _ _ _ _ h2, h⟩
        · rename_i h1
          rw [if_neg h1]
          split at h
          · rename_i h1
            rw [if_pos h1]
            simp only at h ⊢
            split at h
            · rename_i h2; rw [if_pos h2]; exact h
            · rename_i h2
              rw [if_neg h2]
              obtain ⟨p, h2, h⟩ := bind_eq_ok.1 h
              exact bind_eq_ok.2 ⟨p, ih.cons _ _ _ _ h2, h⟩
          · rename_i h1
            rw [if_neg h1]
            exact h
    · intro st id L r h
      unfold constructContainer at h
      rw [constructContainer]
      obtain ⟨m, h1, h⟩ := bind_eq_ok.1 h
      refine bind_eq_ok.2 ⟨m, h1, ?_⟩
      obtain ⟨p, h2, h⟩ := bind_eq_ok.1 h
      refine bind_eq_ok.2 ⟨p, ih.trav _ _ _ _ _ h2, ?_⟩
      obtain ⟨L1, B1⟩ := p
      obtain ⟨u, h3, h⟩ := bind_eq_ok.1 h
      refine bind_eq_ok.2 ⟨u, h3, ?_⟩
      simp only at h ⊢
      split at h
      · rename_i h4; rw [if_pos h4]; exact h
      · rename_i h4
        rw [if_neg h4]
        split at h <;> rename_i h5
        · rw [if_pos h5]
          obtain ⟨B2, h6, h⟩ := bind_eq_ok.1 h
          refine bind_eq_ok.2 ⟨B2, h6, ?_⟩
          obtain ⟨p, h7, h⟩ := bind_eq_ok.1 h
          exact bind_eq_ok.2 ⟨p, ih.boxes _ _ _ h7, h⟩
        · rw [if_neg h5]
          obtain ⟨B2, h6, h⟩ := bind_eq_ok.1 h
          refine bind_eq_ok.2 ⟨B2, h6, ?_⟩
          obtain ⟨p, h7, h⟩ := bind_eq_ok.1 h
          exact bind_eq_ok.2 ⟨p, ih.boxes _ _ _ h7, h⟩
    · intro bs L r h
      cases bs with
      | nil => simpa [finishBoxes] using h
      | cons b bs =>
        obtain ⟨b, slot⟩ := b
        unfold finishBoxes at h
        rw [finishBoxes]
        obtain ⟨p, h1, h⟩ := bind_eq_ok.1 h
        refine bind_eq_ok.2 ⟨p, ?_, ?_⟩
        · rw [withSlots_eq_ok] at h1 ⊢
          exact ih.box _ _ _ h1
        · obtain ⟨q, h2, h⟩ := bind_eq_ok.1 h
          exact bind_eq_ok.2 ⟨q, ih.boxes _ _ _ h2, h⟩
    · intro b L r h
      cases b with
      | sameFormattingContextBlock st c =>
        cases c with
        | inlineFormattingContext _ _ => simpa [finishBox] using h
        | deferred id =>
          unfold finishBox at h
          rw [finishBox]
          obtain ⟨p, h1, h⟩ := bind_eq_ok.1 h
          exact bind_eq_ok.2 ⟨p, ih.cons _ _ _ _ h1, h⟩
      | _ =>
        unfold finishBox at h
        rw [finishBox]
        obtain ⟨p, h1, h⟩ := bind_eq_ok.1 h
        exact bind_eq_ok.2 ⟨p, ih.cons _ _ _ _ h1, h⟩

theorem construct_mono {C : BoxContext} {n m : Nat} {st : Style} {id : NodeId} {L : LayoutData} {r}
    (h : constructContainer C n st id L = .ok r) (hm : n ≤ m) :
    constructContainer C m st id L = .ok r := by
  induction hm with
  | refl => exact h
  | step _ ih => exact (mono C _).cons _ _ _ _ ih

/-- A result of the construction is the announced one. -/
theorem construct_result {C : BoxContext} {kids} (hw : C.doc.WF kids) {st : Style} {id : NodeId}
    {cs : List Styled} {L : LayoutData} (hid : id < C.doc.len) (hs : Shows C kids st (kids id) cs)
    (hL : Fresh' L (idsOf cs)) {n : Nat} {r}
    (h : constructContainer C n st id L = .ok r) :
    goodContent cs = true ∧
    r = ((containerOf C st cs).1, (containerOf C st cs).2.1, applyLog L (containerOf C st cs).2.2) := by
  have hg := (construct_good hw n).2 st id L r hid h cs hs
  obtain ⟨N, h'⟩ := (ConsOk.of_trav hw (trav_ok C kids hw cs)) st id L hid hs hg (hs.nodup hw) hL
  have h1 := construct_mono h (Nat.le_max_left n N)
  have h2 := h' _ (Nat.le_max_right n N)
  simp only [h1] at h2
  exact ⟨hg, Except.ok.inj h2⟩

end Sinab
