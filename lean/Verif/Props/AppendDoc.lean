import Verif.Lemmas.AppendContent
import Verif.Props.Append
import Verif.Props.Read

/-! Content that is added at the end of a document (C80). -/

namespace Sinab

open Sinab.Append

namespace Append

/-- the boxes of a document whose root element is in the flow -/
theorem boxTree_eq {C : BoxContext} {kids : NodeId → List NodeId} {st : Style} {cs : List Styled} {root : NodeId} {b : Bfc}
    {n : Nat} (hw : C.doc.WF kids) (hr : C.doc.rootElement C.doc.len = .ok root) (hid : root < C.doc.len)
    (hst : C.styleOf root none = .ok st) (hd : st.val .display ≠ .none) (ho : st.outOfFlow = false)
    (hs : Shows C kids st (kids root) cs) (h : boxTree C n = .ok b) :
    goodContent cs = true ∧ b = .mk (.blockLevelBoxes [.independent st
      (.mk (containerOf C st cs).1 (containerOf C st cs).2.1)]) false := by
  unfold boxTree at h
  rw [hr] at h
  simp only [bind, Except.bind, hst] at h
  unfold constructRoot at h
  rw [if_neg hd] at h
  simp only [Style.outOfFlow, Bool.or_eq_false_iff] at ho
  cases hc : constructContainer C n st root LayoutData.fresh with
  | error e => rw [hc] at h; cases h
  | ok r =>
    have hb : Built C kids st root cs LayoutData.fresh n r := ⟨hw, hid, hs, fun _ _ => rfl, hc⟩
    obtain ⟨h1, h2⟩ := hb.result
    rw [hc] at h
    simp only [bind, Except.bind, pure, Except.pure, ho.1, ho.2, Bool.false_eq_true, if_false] at h
    refine ⟨h1, ?_⟩
    injection h with h
    rw [← h, h2]

theorem containerOf_font {C C' : BoxContext} (h : C'.fontOf = C.fontOf) (st : Style) (cs : List Styled) :
    (containerOf C' st cs).1 = (containerOf C st cs).1 := by
  have h1 := ((putAll_same h st false cs Flow.empty Flow.empty (Flow.Same.refl _)).container st).1
  have h2 := ((putAll_same (C := C) rfl st false cs Flow.empty Flow.empty (Flow.Same.refl _)).container st).1
  exact h1.trans h2.symm

end Append

/-- C80 for documents: if content is added at the end of a document, anywhere in its last elements, and this changes
the styles of nothing before it, then what was drawn is drawn first, in the same places, if no element is absolutely
positioned, and no inline element is moved by a percentage of the height around it.  If words may
have been added to the last line, this is so for all before that line, in fonts in which longer texts are not narrower. -/
theorem C80_document_partial (words : Bool) {E : TextEnv} {C C' : BoxContext} {kids kids' : NodeId → List NodeId}
    {st : Style} {cs cs' : List Styled} {b b' : Bfc} {size : PVec2 Length} {fs fs' : List Fragment}
    (h : Page C E kids st cs b size fs) (h' : Page C' E kids' st cs' b' size fs')
    (hE : words = true → ∀ f s t, E.width f s ≤ E.width f (s ++ t)) (ho : st.outOfFlow = false)
    (hg : Grown words cs cs') (hp : staysPutAll cs) (hp' : staysPutAll cs') :
    textsAt size (keptLines words fs) <+: textsAt size fs' := by
  obtain ⟨root, hr, hid, hst, hs⟩ := h.content
  obtain ⟨root', hr', hid', hst', hs'⟩ := h'.content
  obtain ⟨n, hb⟩ := h.boxes
  obtain ⟨n', hb'⟩ := h'.boxes
  obtain ⟨g, e1⟩ := boxTree_eq h.forest hr hid hst h.shown ho hs hb
  obtain ⟨g', e2⟩ := boxTree_eq h'.forest hr' hid' hst' h'.shown ho hs' hb'
  have hf : C'.fontOf = C.fontOf := by
    obtain ⟨_, _, _, _, _, _, rfl⟩ := h.context
    obtain ⟨_, _, _, _, _, _, rfl⟩ := h'.context
    rfl
  have hL := (containerOf_grown C st hg g g' hp).anyJoin hE
  have e := containerOf_font hf st cs'
  have hn := containerOf_noAbs C st hp
  have hn' := containerOf_noAbs C' st hp'
  have hl := h.laidOut
  have hl' := h'.laidOut
  rw [e1] at hl
  rw [e2] at hl'
  obtain ⟨gs, gs', k1, k2, k3⟩ := C80_append_partial E words _ _ _ _ size
    (.last [] [] (.independent st (.mk (containerOf C st cs).1 (containerOf C st cs).2.1))
      (.independent st (.mk (containerOf C' st cs').1 (containerOf C' st cs').2.1)) (.independent _ _ _ _ _ (by
        rw [e]
        exact hL))) (by
    simpa [noAbs, blocksNoAbs, blockNoAbs, bfcNoAbs] using hn) (by
    simpa [noAbs, blocksNoAbs, blockNoAbs, bfcNoAbs] using hn')
  cases hl.symm.trans k1
  cases hl'.symm.trans k2
  exact k3

/-- a document for the example -/
def grownFrom : Doc := pageOf [.node "p" [.text "ab cd"], .node "p" [.text "ef gh ", .node "em" [.text "ij"]]]

/-- the same document, with more at the end of the last paragraph and after it -/
def grownTo : Doc :=
  pageOf [.node "p" [.text "ab cd"], .node "p" [.text "ef gh ", .node "em" [.text "ij kl"], .text " mn"], .node "p" [.text "op"]]

/-- the texts of a page and their positions -/
def pageAt (d : Doc) (width : ℚ) : Option (List (String × ℚ × ℚ)) :=
  (pageRead readEnv d width).map fun p => (textsAt ⟨width, 100⟩ p.2).filterMap fun
    | .text t x y _ _ => some (t, x, y)
    | _ => none

/-- the style of the last element -/
def grownInline : Style :=
  { (pageStyle grownFrom).set .display (.generatingBox .inline .flow) with
    specifiedDisplay := .generatingBox .inline .flow }

/-- the content of the example: the body with two paragraphs, up to the text of the last element -/
def grownBody (t : String) (more : List Styled) (after : List Styled) : List Styled :=
  let s := pageStyle grownFrom
  let i := grownInline
  [] ++ .elem 3 s .block .flow ([.elem 4 s .block .flow [.text s "ab cd".toList]] ++
    .elem 6 s .block .flow ([.text s "ef gh ".toList] ++ .elem 8 i .inline .flow ([] ++ .text i t.toList :: []) :: more)
      :: after) :: []

theorem grownFrom_content : rootContent grownFrom = grownBody "ij" [] [] := by
  apply sameAll_eq
  decide +kernel

theorem grownTo_content : rootContent grownTo = grownBody ("ij" ++ " kl") [.text (pageStyle grownFrom) " mn".toList]
    [.elem 11 (pageStyle grownFrom) .block .flow [.text (pageStyle grownFrom) "op".toList]] := by
  apply sameAll_eq
  decide +kernel

example : rootCheck grownFrom = true ∧ rootCheck grownTo = true := by decide +kernel

example : Grown true (rootContent grownFrom) (rootContent grownTo) := by
  rw [grownFrom_content, grownTo_content]
  have := Grown.text (words := true) rfl [] [] grownInline
    "ij".toList " kl".toList
  exact .block _ _ _ _ _ _ _ (by decide +kernel) (.block _ _ _ _ _ _ _ (by decide +kernel) (.inline rfl _ _ _ _ _ _ _ this))

example : pageAt grownFrom 55 = some [("ab cd", 0, 68 / 5), ("ef gh", 0, 164 / 5), ("ij", 0, 52)] := by decide +kernel

example : pageAt grownTo 55 = some [("ab cd", 0, 68 / 5), ("ef gh", 0, 164 / 5), ("ij kl", 0, 52), ("mn", 0, 356 / 5),
    ("op", 0, 452 / 5)] := by decide +kernel

end Sinab
