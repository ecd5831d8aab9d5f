import Verif.Lemmas.EditedContent
import Verif.Props.Edited
import Verif.Props.AppendDoc

/-! A document in which the words of one paragraph are edited (C93). -/

namespace Sinab

open Sinab.Append

/-- C93 for documents: if words `ks` that stand between blocks, or at the beginning or end of an element, are replaced by
words `ks'`, and this changes the styles of nothing else, then the calls made before those of the words are the same,
except that the backgrounds and borders of the elements around them get higher by a length `d`; the lines of the words
begin in the same place `o`; what comes after them is moved down by `d`, by which they get higher; and what comes after an
element whose height is given is the same. -/
theorem C93_document {E : TextEnv} {C C' : BoxContext} {kids kids' : NodeId → List NodeId} {st s : Style}
    {cs cs' ks ks' : List Styled} {around : List Style} {b b' : Bfc} {size : PVec2 Length} {fs fs' : List Fragment}
    (h : Page C E kids st cs b size fs) (h' : Page C' E kids' st cs' b' size fs') (ho : st.outOfFlow = false)
    (hk : isParagraph ks = true) (hk' : isParagraph ks' = true)
    (hc : EditedContent s ks ks' st around (unwrapAll cs) (unwrapAll cs'))
    (hu : unliftedAll cs = true) (hu' : unliftedAll cs' = true) :
    ∃ ibs ibs' cb rank fc fc' o before before' after rest,
      (uniformAll s false ks = true → inlineInk ibs = inkOf E.font ks) ∧
      (uniformAll s false ks' = true → inlineInk ibs' = inkOf E.font ks') ∧
      ifcLayout E s ibs cb rank [] = .ok (fc, []) ∧ ifcLayout E s ibs' cb rank [] = .ok (fc', []) ∧
      (paintPage size fs).calls =
        before ++ (paintPage size fc.fragments).calls.map (DrawCall.move o) ++ after ++ rest ∧
      (paintPage size fs').calls =
        before' ++ (paintPage size fc'.fragments).calls.map (DrawCall.move o) ++
          after.map (DrawCall.move ⟨0, fc'.blockSize - fc.blockSize⟩) ++ rest ∧
      List.Forall₂ (Stretched (fc'.blockSize - fc.blockSize)) before before' ∧
      ((∀ s ∈ st :: around, s.val .height = .auto) → rest = []) := by
  obtain ⟨root, hr, hid, hst, hs⟩ := h.content
  obtain ⟨root', hr', hid', hst', hs'⟩ := h'.content
  obtain ⟨n, hb⟩ := h.boxes
  obtain ⟨n', hb'⟩ := h'.boxes
  obtain ⟨g, e1⟩ := boxTree_eq h.forest hr hid hst h.shown ho hs hb
  obtain ⟨g', e2⟩ := boxTree_eq h'.forest hr' hid' hst' h'.shown ho hs' hb'
  have hE : C.fontOf = E.font := by
    obtain ⟨_, _, _, _, _, _, rfl⟩ := h.context
    rfl
  have hf : C'.fontOf = C.fontOf := by
    obtain ⟨_, _, _, _, _, _, rfl⟩ := h.context
    obtain ⟨_, _, _, _, _, _, rfl⟩ := h'.context
    rfl
  obtain ⟨around', ha, hed⟩ := containerOf_edited C hk hk' hc
  rw [← containerOf_unwrap rfl, ← containerOf_unwrap hf] at hed
  have hn := containerOf_unlifted C st hu
  have hn' := containerOf_unlifted C' st hu'
  have hl := h.laidOut
  have hl' := h'.laidOut
  rw [e1] at hl
  rw [e2] at hl'
  obtain ⟨gs, gs', cb, rank, fc, fc', o, before, before', after, rest, k1, k2, k3, k4, k5, k6, k7, k8⟩ :=
    C93_drawn E (.blocks (st :: around') [] (.independent st (.mk (containerOf C st cs).1 (containerOf C st cs).2.1))
      (.independent st (.mk (containerOf C' st cs').1 (containerOf C' st cs').2.1)) [] (.independent _ _ _ _ _ _ hed))
      (by simpa [noAbs, blocksNoAbs, blockNoAbs, bfcNoAbs] using hn)
      (by simpa [noAbs, blocksNoAbs, blockNoAbs, bfcNoAbs] using hn') false false size
  cases hl.symm.trans k1
  cases hl'.symm.trans k2
  simp only [goodContent, Bool.and_eq_true] at g g'
  refine ⟨_, _, cb, rank, fc, fc', o, before, before', after, rest, fun u => ?_, fun u => ?_, k3, k4, k5, k6, k7, fun k => k8 ?_⟩
  · rw [paragraph_ink C s hk (hc.good.1 (goodAll_unwrap _ _ g.2)) u, hE]
  · rw [paragraph_ink C s hk' (hc.good.2 (goodAll_unwrap _ _ g'.2)) u, hE]
  · simp only [List.mem_cons, forall_eq_or_imp] at k ⊢
    exact ⟨k.1, ha k.2⟩

/-- a document for the example -/
def editedFrom : Doc := pageOf [.node "p" [.text "ab cd"], .text " ef", .node "p" [.text "kl"]]

/-- the same document with more words between the paragraphs -/
def editedTo : Doc :=
  pageOf [.node "p" [.text "ab cd"], .text " gh ", .node "em" [.text "ij mn"], .node "p" [.text "kl"]]

/-- the content of the example: the body with two paragraphs and words between them -/
def editedBody (ks : List Styled) : List Styled :=
  let s := pageStyle grownFrom
  [] ++ .elem 0 s .block .flow ([.elem 0 s .block .flow [.text s "ab cd".toList]] ++
    (ks ++ [.elem 0 s .block .flow [.text s "kl".toList]])) :: []

/-- the words before -/
def editedOld : List Styled := [.text (pageStyle grownFrom) " ef".toList]

/-- the words after -/
def editedNew : List Styled :=
  [.text (pageStyle grownFrom) " gh ".toList, .elem 0 grownInline .inline .flow [.text grownInline "ij mn".toList]]

theorem editedFrom_content : unwrapAll (rootContent editedFrom) = editedBody editedOld := by
  apply sameAll_eq
  decide +kernel

theorem editedTo_content : unwrapAll (rootContent editedTo) = editedBody editedNew := by
  apply sameAll_eq
  decide +kernel

example : rootCheck editedFrom = true ∧ rootCheck editedTo = true := by decide +kernel

example : isParagraph editedOld = true ∧ isParagraph editedNew = true ∧ unliftedAll (rootContent editedFrom) = true ∧
    unliftedAll (rootContent editedTo) = true := by decide +kernel

example : EditedContent (pageStyle grownFrom) editedOld editedNew (pageStyle grownFrom) [pageStyle grownFrom]
    (unwrapAll (rootContent editedFrom)) (unwrapAll (rootContent editedTo)) := by
  rw [editedFrom_content, editedTo_content]
  exact .block _ _ _ _ _ _ _ _ _ (by decide +kernel) (.here _ _ (by
    simp only [List.getLast?_singleton, Option.mem_some, forall_eq']; decide +kernel) (by
    simp only [List.head?_cons, Option.mem_some, forall_eq']; decide +kernel))

example : pageAt editedFrom 55 = some [("ab cd", 0, 68 / 5), ("ef", 0, 164 / 5), ("kl", 0, 52)] := by decide +kernel

example : pageAt editedTo 55 = some [("ab cd", 0, 68 / 5), ("gh ", 0, 164 / 5), ("ij", 30, 164 / 5), ("mn", 0, 52), ("kl", 0, 52 + 96 / 5)] := by
  decide +kernel

end Sinab
