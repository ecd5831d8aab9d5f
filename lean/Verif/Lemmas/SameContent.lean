import Verif.Lemmas.SameTree
import Verif.Props.Supported

/-! Documents with the same elements and texts have the same boxes. -/

namespace Sinab

open Doc

/-- Content that differs by comments, numbers of nodes, and as `txt` says in the texts; with `ends`, a hidden element is the last
child in both or in none. -/
inductive SameContent (txt : Text → Text → Prop) (ends : Prop) : List Styled → List Styled → Prop
  | nil : SameContent txt ends [] []
  | left {cs cs'} : SameContent txt ends cs cs' → SameContent txt ends (.other :: cs) cs'
  | right {cs cs'} : SameContent txt ends cs cs' → SameContent txt ends cs (.other :: cs')
  | text {st t t' cs cs'} : t = t' ∨ txt t t' → SameContent txt ends cs cs' →
    SameContent txt ends (.text st t :: cs) (.text st t' :: cs')
  | hidden {i i' cs cs'} : SameContent txt ends cs cs' →
    SameContent txt ends (.hidden i :: cs) (.hidden i' :: cs')
  | contents {i i' ks ks' cs cs'} : SameContent txt ends ks ks' → (ends → endsHidden ks = endsHidden ks') →
    SameContent txt ends cs cs' → SameContent txt ends (.contents i ks :: cs) (.contents i' ks' :: cs')
  | elem {i i' st o ins ks ks' cs cs'} : SameContent txt ends ks ks' →
    (ends → endsHidden ks = endsHidden ks') → SameContent txt ends cs cs' →
    SameContent txt ends (.elem i st o ins ks :: cs) (.elem i' st o ins ks' :: cs')

theorem SameContent.strip {ends : Prop} {cs cs' : List Styled} (h : SameContent Eq ends cs cs') :
    stripAll cs = stripAll cs' := by
  induction h <;> simp_all [stripAll, Styled.strip]

/-! ## Supported content -/

theorem goodAll_same {txt : Text → Text → Prop} {ends : Prop} (he : ends) {cs cs' : List Styled} (h : SameContent txt ends cs cs') :
    ∀ inl, goodAll inl cs = goodAll inl cs' := by
  induction h with
  | nil => intro _; rfl
  | left _ ih => intro inl; simp [goodAll, Styled.good, ih]
  | right _ ih => intro inl; simp [goodAll, Styled.good, ih]
  | text _ _ ih => intro inl; simp only [goodAll, Styled.good, ih]
  | hidden _ ih => intro inl; simp only [goodAll, Styled.good, ih]
  | contents _ h _ ih1 ih2 => intro inl; simp only [goodAll, Styled.good, ih1, ih2, h he]
  | @elem i i' st o ins ks ks' cs cs' _ h _ ih1 ih2 =>
    intro inl
    cases o <;> cases ins <;> simp only [goodAll, Styled.good, ih1, ih2, h he]

/-- the last entry is a comment or the like -/
def EndsOther (cs : List Styled) : Prop := cs.getLast? = some .other

theorem SameContent.others {txt : Text → Text → Prop} {ends : Prop} {cs cs' : List Styled} (h : SameContent txt ends cs cs') (hc : cs = []) :
    cs' = [] ∨ EndsOther cs' := by
  induction h with
  | nil => exact .inl rfl
  | right _ ih =>
    right
    rcases ih hc with rfl | h
    · rfl
    · rename_i l _
      cases l with
      | nil => cases h
      | cons x l => rw [EndsOther, List.getLast?_cons_cons]; exact h
  | _ => cases hc

theorem EndsOther.cons {c : Styled} {cs : List Styled} (h : EndsOther cs) : EndsOther (c :: cs) := by
  cases cs with
  | nil => cases h
  | cons x l => rw [EndsOther, List.getLast?_cons_cons]; exact h

theorem EndsOther.tail {c : Styled} {cs : List Styled} (h : ¬ EndsOther (c :: cs)) : ¬ EndsOther cs :=
  fun h' => h h'.cons

theorem SameContent.symm {txt : Text → Text → Prop} {ends : Prop} {cs cs' : List Styled} (h : SameContent txt ends cs cs') :
    SameContent (fun t t' => txt t' t) ends cs' cs := by
  induction h with
  | nil => exact .nil
  | left _ ih => exact .right ih
  | right _ ih => exact .left ih
  | text ht _ ih => exact .text (ht.imp Eq.symm id) ih
  | hidden _ ih => exact .hidden ih
  | contents _ h _ ih1 ih2 => exact .contents ih1 (fun he => (h he).symm) ih2
  | elem _ h _ ih1 ih2 => exact .elem ih1 (fun he => (h he).symm) ih2

/-- If both contents end with something else than a comment, both end with a hidden element or none. -/
theorem SameContent.endsHidden {txt : Text → Text → Prop} {ends : Prop} {cs cs' : List Styled} (h : SameContent txt ends cs cs')
    (h1 : ¬ EndsOther cs) (h2 : ¬ EndsOther cs') : Sinab.endsHidden cs = Sinab.endsHidden cs' := by
  induction h with
  | nil => rfl
  | left _ ih => rw [endsHidden_shown (by simp)]; exact ih (EndsOther.tail h1) h2
  | right _ ih => rw [endsHidden_shown (c := .other) (by simp)]; exact ih h1 (EndsOther.tail h2)
  | text _ _ ih =>
    rw [endsHidden_shown (by simp), endsHidden_shown (by simp)]
    exact ih (EndsOther.tail h1) (EndsOther.tail h2)
  | contents _ _ _ _ ih =>
    rw [endsHidden_shown (by simp), endsHidden_shown (by simp)]
    exact ih (EndsOther.tail h1) (EndsOther.tail h2)
  | elem _ _ _ _ ih =>
    rw [endsHidden_shown (by simp), endsHidden_shown (by simp)]
    exact ih (EndsOther.tail h1) (EndsOther.tail h2)
  | @hidden i i' cs cs' h ih =>
    by_cases hc : cs = []
    · subst hc
      rcases h.others rfl with rfl | hh
      · rfl
      · exact absurd hh (EndsOther.tail h2)
    · by_cases hc' : cs' = []
      · subst hc'
        rcases h.symm.others rfl with rfl | hh
        · exact absurd rfl hc
        · exact absurd hh (EndsOther.tail h1)
      · rw [endsHidden_cons hc, endsHidden_cons hc']
        exact ih (EndsOther.tail h1) (EndsOther.tail h2)

theorem EndsInElement.tail {d : Doc} {i : NodeId} {l : List NodeId} (h : EndsInElement d (i :: l)) :
    (l = [] ∧ IsElement d i) ∨ EndsInElement d l := by
  obtain ⟨a, j, h1, h2⟩ := h
  cases a with
  | nil =>
    simp only [List.nil_append, List.cons.injEq] at h1
    obtain ⟨rfl, rfl⟩ := h1
    exact .inl ⟨rfl, h2⟩
  | cons x a =>
    simp only [List.cons_append, List.cons.injEq] at h1
    exact .inr ⟨a, j, h1.2, h2⟩

theorem EndsInElement.cons {d : Doc} {i : NodeId} {l : List NodeId} (h : EndsInElement d l) :
    EndsInElement d (i :: l) := by
  obtain ⟨a, j, rfl, h2⟩ := h
  exact ⟨i :: a, j, rfl, h2⟩

theorem EndsInElement.nil {d : Doc} : ¬ EndsInElement d [] := by
  rintro ⟨a, j, h, -⟩
  simp at h

theorem IsElement.not_other {d : Doc} {i : NodeId} (h : IsElement d i) : ¬ (d.node i).data.isOther := by
  obtain ⟨e, he⟩ := h
  rw [ElementAt] at he
  simp [NodeData.isOther, he, NodeData.asElement]

/-- content that ends with an element does not end with a comment; other content does not end with
a hidden element -/
theorem Shows.ending {C : BoxContext} {kids} {st : Style} {l : List NodeId} {cs : List Styled}
    (h : Shows C kids st l cs) : (EndsInElement C.doc l → ¬ EndsOther cs) ∧
      (¬ EndsInElement C.doc l → endsHidden cs = false) := by
  have key : ∀ {c : Styled} {cs : List Styled} {i : NodeId} {l : List NodeId},
      c ≠ .other → (∀ j, c ≠ .hidden j) →
      (EndsInElement C.doc l → ¬ EndsOther cs) ∧ (¬ EndsInElement C.doc l → endsHidden cs = false) →
      l.length = cs.length →
      (EndsInElement C.doc (i :: l) → ¬ EndsOther (c :: cs)) ∧
      (¬ EndsInElement C.doc (i :: l) → endsHidden (c :: cs) = false) := by
    intro c cs i l hc1 hc2 ih hlen
    refine ⟨fun he ho => ?_, fun he => ?_⟩
    · rcases he.tail with ⟨rfl, -⟩ | he
      · have : cs = [] := List.length_eq_zero_iff.1 (by simpa using hlen.symm)
        subst this
        simp [EndsOther] at ho
        exact hc1 ho
      · cases cs with
        | nil => exact hc1 (by simpa [EndsOther] using ho)
        | cons x m => exact ih.1 he (by rw [EndsOther, List.getLast?_cons_cons] at ho; exact ho)
    · rw [endsHidden_shown hc2]
      exact ih.2 fun h => he h.cons
  induction h with
  | nil => exact ⟨fun h => absurd h EndsInElement.nil, fun _ => rfl⟩
  | @other st i l cs ho h ih =>
    refine ⟨fun he => ?_, fun he => ?_⟩
    · rcases he.tail with ⟨rfl, h'⟩ | he
      · exact absurd ho h'.not_other
      · intro ho'
        cases h with
        | nil => exact EndsInElement.nil he
        | _ => exact ih.1 he (by rw [EndsOther, List.getLast?_cons_cons] at ho'; exact ho')
    · rw [endsHidden_shown (by simp)]
      exact ih.2 fun h => he h.cons
  | text _ h ih => exact key (by simp) (by simp) ih h.length_eq
  | br _ _ _ h ih => exact key (by simp) (by simp) ih h.length_eq
  | contents _ _ _ _ _ h _ ih => exact key (by simp) (by simp) ih h.length_eq
  | elem _ _ _ _ _ h _ ih => exact key (by simp) (by simp) ih h.length_eq
  | @hidden st i l cs e s h1 _ _ _ h ih =>
    refine ⟨fun he ho => ?_, fun he => ?_⟩
    · cases h with
      | nil => cases ho
      | _ =>
        rcases he.tail with ⟨h', -⟩ | he
        · cases h'
        · exact ih.1 he (by rw [EndsOther, List.getLast?_cons_cons] at ho; exact ho)
    · cases h with
      | nil => exact absurd ⟨[], i, rfl, ⟨e, h1⟩⟩ he
      | _ =>
        rw [endsHidden_cons (by simp)]
        exact ih.2 fun h => he h.cons

/-! ## The content of the documents -/

theorem shows_same {txt : Text → Text → Prop} {ends : Prop} {C C' : BoxContext} {kids kids' : NodeId → List NodeId}
    (hC : ∀ i i', Counterpart txt ends C.doc kids C'.doc kids' i i' → ∀ p, C.styleOf i p = C'.styleOf i' p)
    {l l' : List NodeId} (h : Alike txt ends C.doc kids C'.doc kids' l l') :
    ∀ {p p' : NodeId} {a a' : List NodeId} {st : Style} {cs : List Styled},
      Holder txt ends C.doc kids C'.doc kids' p p' → kids p = a ++ l → kids' p' = a' ++ l' →
      Alike txt ends C.doc kids C'.doc kids' a a' → Shows C kids st l cs →
      ∃ cs', Shows C' kids' st l' cs' ∧ SameContent txt ends cs cs' := by
  induction h with
  | nil =>
    intro p p' a a' st cs _ _ _ _ hs
    cases hs
    exact ⟨[], .nil, .nil⟩
  | @text i i' l l' t t' h1 h2 htt hl ih =>
    intro p p' a a' st cs hp hk hk' ha hs
    have nx := fun cs hs => ih (st := st) (cs := cs) hp (a := a ++ [i]) (a' := a' ++ [i'])
      (by rw [hk]; simp) (by rw [hk']; simp) (ha.append (.text h1 h2 htt .nil)) hs
    cases hs with
    | other ho hs => simp [NodeData.isOther, h1, NodeData.asText] at ho
    | text ht hs =>
      rw [h1] at ht
      cases ht
      obtain ⟨cs', e1, e2⟩ := nx _ hs
      exact ⟨_, .text h2 e1, .text (.inr htt) e2⟩
    | br he _ _ _ => rw [h1] at he; cases he
    | hidden he _ _ _ _ => rw [h1] at he; cases he
    | contents he _ _ _ _ _ => rw [h1] at he; cases he
    | elem he _ _ _ _ _ => rw [h1] at he; cases he
  | @left i l l' h hl ih =>
    intro p p' a a' st cs hp hk hk' ha hs
    have nx := fun cs hs => ih (st := st) (cs := cs) hp (a := a ++ [i]) (a' := a')
      (by rw [hk]; simp) hk' (by simpa using ha.append (.left h .nil)) hs
    have hne : ∀ e, (C.doc.node i).data ≠ .element e := by
      intro e he; rw [he] at h; exact h
    cases hs with
    | other ho hs =>
      obtain ⟨cs', e1, e2⟩ := nx _ hs
      exact ⟨_, e1, .left e2⟩
    | text ht hs => rw [ht] at h; exact absurd h id
    | br he _ _ _ => exact absurd he (hne _)
    | hidden he _ _ _ _ => exact absurd he (hne _)
    | contents he _ _ _ _ _ => exact absurd he (hne _)
    | elem he _ _ _ _ _ => exact absurd he (hne _)
  | @right i' l l' h hl ih =>
    intro p p' a a' st cs hp hk hk' ha hs
    obtain ⟨cs', e1, e2⟩ := ih (st := st) (cs := cs) hp (a := a) (a' := a' ++ [i'])
      hk (by rw [hk']; simp) (by simpa using ha.append (.right h .nil)) hs
    exact ⟨_, .other (Outside.other h) e1, .right e2⟩
  | @elem i i' l l' e h1 h2 hkids hends hl ih1 ih2 =>
    intro p p' a a' st cs hp hk hk' ha hs
    have nx := fun cs hs => ih2 (st := st) (cs := cs) hp (a := a ++ [i]) (a' := a' ++ [i'])
      (by rw [hk]; simp) (by rw [hk']; simp) (ha.append (.elem h1 h2 hkids hends .nil)) hs
    have hcp : Counterpart txt ends C.doc kids C'.doc kids' i i' :=
      hp.counterpart (.of hk hk' ha hl ⟨⟨e, h1, h2⟩, hkids, hends⟩)
    have sub : ∀ s ks, Shows C kids s (kids i) ks → ∃ ks', Shows C' kids' s (kids' i') ks' ∧
        SameContent txt ends ks ks' ∧ (ends → endsHidden ks = endsHidden ks') := by
      intro s ks hks
      obtain ⟨ks', e1, e2⟩ := ih1 (.inr hcp) (a := []) (a' := []) rfl rfl .nil hks
      refine ⟨ks', e1, e2, fun he => ?_⟩
      by_cases hh : EndsInElement C.doc (kids i)
      · exact e2.endsHidden (hks.ending.1 hh) (e1.ending.1 ((hends he).1 hh))
      · rw [hks.ending.2 hh, e1.ending.2 (fun h => hh ((hends he).2 h))]
    rw [ElementAt] at h1 h2
    cases hs with
    | other ho hs => simp [NodeData.isOther, h1, NodeData.asElement] at ho
    | text ht hs => rw [h1] at ht; cases ht
    | br he hb hst hs =>
      rw [h1] at he
      cases he
      obtain ⟨cs', e1, e2⟩ := nx _ hs
      rw [hC i i' hcp] at hst
      exact ⟨_, .br h2 hb hst e1, .text (.inl rfl) e2⟩
    | hidden he hb hst hd hs =>
      rw [h1] at he
      cases he
      obtain ⟨cs', e1, e2⟩ := nx _ hs
      rw [hC i i' hcp] at hst
      exact ⟨_, .hidden h2 hb hst hd e1, .hidden e2⟩
    | contents he hb hst hd hks hs =>
      rw [h1] at he
      cases he
      obtain ⟨cs', e1, e2⟩ := nx _ hs
      obtain ⟨ks', e3, e4, e5⟩ := sub _ _ hks
      rw [hC i i' hcp] at hst
      exact ⟨_, .contents h2 hb hst hd e3 e1, .contents e4 e5 e2⟩
    | elem he hb hst hd hks hs =>
      rw [h1] at he
      cases he
      obtain ⟨cs', e1, e2⟩ := nx _ hs
      obtain ⟨ks', e3, e4, e5⟩ := sub _ _ hks
      rw [hC i i' hcp] at hst
      exact ⟨_, .elem h2 hb hst hd e3 e1, .elem e4 e5 e2⟩

/-- The content of counterparts. -/
theorem content_same {txt : Text → Text → Prop} {ends : Prop} {C C' : BoxContext} {kids kids' : NodeId → List NodeId}
    (hC : ∀ i i', Counterpart txt ends C.doc kids C'.doc kids' i i' → ∀ p, C.styleOf i p = C'.styleOf i' p)
    {i i' : NodeId} (h : Counterpart txt ends C.doc kids C'.doc kids' i i') {st : Style} {cs : List Styled}
    (hs : Shows C kids st (kids i) cs) :
    ∃ cs', Shows C' kids' st (kids' i') cs' ∧ SameContent txt ends cs cs' ∧
      (ends → goodContent cs = goodContent cs') := by
  obtain ⟨-, hk, hends⟩ := h.element
  obtain ⟨cs', e1, e2⟩ := shows_same hC hk (.inr h) (a := []) (a' := []) rfl rfl .nil hs
  refine ⟨cs', e1, e2, fun he => ?_⟩
  have : endsHidden cs = endsHidden cs' := by
    by_cases hh : EndsInElement C.doc (kids i)
    · exact e2.endsHidden (hs.ending.1 hh) (e1.ending.1 ((hends he).1 hh))
    · rw [hs.ending.2 hh, e1.ending.2 (fun h => hh ((hends he).2 h))]
  unfold goodContent
  rw [this, goodAll_same he e2]

end Sinab
