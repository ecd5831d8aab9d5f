import Verif.Lemmas.GroupedContent
import Verif.Props.Grouped
import Verif.Props.AppendDoc

/-! A document in which consecutive blocks are put in an element of their own (C94). -/

namespace Sinab

open Sinab.Append

variable {E : TextEnv} {C C' : BoxContext} {kids kids' : NodeId → List NodeId} {st : Style} {cs cs' : List Styled}
  {b b' : Bfc} {size : PVec2 Length} {fs fs' : List Fragment}

/-- the boxes of two documents of which the second has consecutive blocks in an element of their own -/
theorem page_grouped (h : Page C E kids st cs b size fs) (h' : Page C' E kids' st cs' b' size fs')
    (ho : st.outOfFlow = false) {ok : List Styled → Prop} {ok' : List BlockLevelBox → Prop}
    (hok : ∀ L, blocksOnly L = true → ok L → ok' ((L.filter Styled.inFlowBlock).map (Styled.blockBox C)))
    (hc : GroupedContent ok (unwrapAll cs) (unwrapAll cs')) (hu : unliftedAll cs = true) :
    ∃ c c', b = .mk c false ∧ b' = .mk c' false ∧ Grouped ok' c c' ∧ noAbs c := by
  obtain ⟨root, hr, hid, hst, hs⟩ := h.content
  obtain ⟨root', hr', hid', hst', hs'⟩ := h'.content
  obtain ⟨n, hb⟩ := h.boxes
  obtain ⟨n', hb'⟩ := h'.boxes
  obtain ⟨-, e1⟩ := boxTree_eq h.forest hr hid hst h.shown ho hs hb
  obtain ⟨-, e2⟩ := boxTree_eq h'.forest hr' hid' hst' h'.shown ho hs' hb'
  have hf : C'.fontOf = C.fontOf := by
    obtain ⟨_, _, _, _, _, _, rfl⟩ := h.context
    obtain ⟨_, _, _, _, _, _, rfl⟩ := h'.context
    rfl
  have hg := containerOf_grouped C hok hc st
  rw [← containerOf_unwrap rfl, ← containerOf_unwrap hf] at hg
  have hn := containerOf_unlifted C st hu
  exact ⟨_, _, e1, e2, .inside [] _ _ [] (.independent _ _ _ _ _ hg),
    by simpa [noAbs, blocksNoAbs, blockNoAbs, bfcNoAbs] using hn⟩

/-- C94 for documents: if consecutive blocks, the heights of which are not given as percentages, are put in an element
without margins, padding and borders, and this changes the styles of nothing, then all texts are drawn in the same places,
in the same order. -/
theorem C94_document_texts (h : Page C E kids st cs b size fs) (h' : Page C' E kids' st cs' b' size fs')
    (ho : st.outOfFlow = false) (hc : GroupedContent (fun L => ∀ x ∈ L, x.heightFree) (unwrapAll cs) (unwrapAll cs'))
    (hu : unliftedAll cs = true) :
    (paintPage size fs').calls.filter DrawCall.isText = (paintPage size fs).calls.filter DrawCall.isText := by
  obtain ⟨c, c', rfl, rfl, hg, ha⟩ := page_grouped (ok' := fun L => ∀ b ∈ L, b.heightFree) h h' ho
    (fun L _ k => blocks_heightFree C k) hc hu
  obtain ⟨gs, gs', k1, k2, k3⟩ := C94_texts E hg ha false false size
  cases h.laidOut.symm.trans k1
  cases h'.laidOut.symm.trans k2
  exact k3

/-- C94 for documents: if, moreover, no block in these blocks has a border above a negative padding, then the page looks
the same: the same texts, rectangles (but those with no height) and lines (but those with no length) are drawn in the same
places, in the same order. -/
theorem C94_document_seen (h : Page C E kids st cs b size fs) (h' : Page C' E kids' st cs' b' size fs')
    (ho : st.outOfFlow = false)
    (hc : GroupedContent (fun L => (∀ x ∈ L, x.heightFree) ∧ ∀ s ∈ styledBlockStyles L, s.bordersKept)
      (unwrapAll cs) (unwrapAll cs'))
    (hu : unliftedAll cs = true) :
    (paintPage size fs').calls.filter DrawCall.seen = (paintPage size fs).calls.filter DrawCall.seen := by
  obtain ⟨c, c', rfl, rfl, hg, ha⟩ := page_grouped
    (ok' := fun L => (∀ b ∈ L, b.heightFree) ∧ ∀ s ∈ blockStylesAll L, s.bordersKept) h h' ho
    (fun L hL k => ⟨blocks_heightFree C k.1, blocks_ruled anonymous_bordersKept C hL k.2⟩) hc hu
  obtain ⟨gs, gs', k1, k2, k3⟩ := C94_seen E hg ha false false size
  cases h.laidOut.symm.trans k1
  cases h'.laidOut.symm.trans k2
  exact k3

/-- a document for the example: words, two paragraphs, words -/
def groupedFrom : Doc :=
  pageOf [.text "ab ", .node "p" [.text "cd"], .node "p" [.text "ef gh"], .text " ij", .node "p" [.text "kl"]]

/-- the same document, with a `div` around the two paragraphs -/
def groupedTo : Doc :=
  pageOf [.text "ab ", .node "div" [.text "\n ", .node "p" [.text "cd"], .text " ", .node "p" [.text "ef gh"]], .text " ij",
    .node "p" [.text "kl"]]

/-- a paragraph of the example -/
def groupedPara (t : String) : Styled :=
  .elem 0 (pageStyle grownFrom) .block .flow [.text (pageStyle grownFrom) t.toList]

/-- a text of the example -/
def groupedText (t : String) : Styled := .text (pageStyle grownFrom) t.toList

/-- the content of the example -/
def groupedBody (ks : List Styled) : List Styled :=
  [] ++ .elem 0 (pageStyle grownFrom) .block .flow ([groupedText "ab "] ++ ks) :: []

theorem groupedFrom_content : unwrapAll (rootContent groupedFrom) =
    groupedBody ([groupedPara "cd", groupedPara "ef gh"] ++ [groupedText " ij", groupedPara "kl"]) := by
  apply sameAll_eq
  decide +kernel

theorem groupedTo_content : unwrapAll (rootContent groupedTo) =
    groupedBody (.elem 0 (pageStyle grownFrom) .block .flow
      [groupedText "\n ", groupedPara "cd", groupedText " ", groupedPara "ef gh"] :: [groupedText " ij", groupedPara "kl"]) := by
  apply sameAll_eq
  decide +kernel

example : rootCheck groupedFrom = true ∧ rootCheck groupedTo = true ∧ unliftedAll (rootContent groupedFrom) = true := by
  decide +kernel

example : GroupedContent (fun L => (∀ x ∈ L, x.heightFree) ∧ ∀ s ∈ styledBlockStyles L, s.bordersKept)
    (unwrapAll (rootContent groupedFrom)) (unwrapAll (rootContent groupedTo)) := by
  rw [groupedFrom_content, groupedTo_content]
  have hh : (pageStyle grownFrom).val .height = .auto := by decide +kernel
  have hs : (pageStyle grownFrom).bordersKept := ⟨.inl (by decide +kernel), .inl (by decide +kernel)⟩
  refine .block _ _ _ _ _ _ _ (by decide +kernel) (.here _ _ _ _ _ _ ?_ (by decide +kernel)
    ⟨_, rfl, by decide +kernel⟩ (by decide +kernel) (by decide +kernel) ?_ ⟨?_, ?_⟩)
  · constructor <;> decide +kernel
  · apply sameAll_eq
    decide +kernel
  · intro x hx
    simp only [List.mem_cons, List.not_mem_nil, or_false] at hx
    rcases hx with rfl | rfl <;>
    · intro p k
      rw [hh] at k
      exact LengthOrPercentageOrAuto.noConfusion k
  · intro s k
    simp only [groupedPara, styledBlockStyles, Styled.blockStyles, List.append_nil, List.singleton_append, List.mem_cons,
      List.not_mem_nil, or_false, or_self] at k
    exact k ▸ hs

example : pageAt groupedFrom 55 = some [("ab ", 0, 68 / 5), ("cd", 0, 164 / 5), ("ef gh", 0, 52), ("ij", 0, 356 / 5), ("kl", 0, 452 / 5)] := by
  decide +kernel

example : pageAt groupedTo 55 = pageAt groupedFrom 55 := by decide +kernel

end Sinab
