import Verif.Lemmas.Block

namespace Sinab

variable {S : SelectorEngine}

/-- a matching result counts as a hit -/
def hit : Except Panic Bool → Bool
  | .ok b => b
  | .error _ => false

theorem hit_eq_true (r : Except Panic Bool) : hit r = true ↔ r = .ok true := by
  cases r <;> simp [hit]

theorem pushMatching_ok {d : Doc} {n : NodeId} {rules : List (S.Sel × Block)} {bs : List Block}
    (h : pushMatching d n rules = .ok bs) :
    bs = (rules.filter fun r => hit (S.matches_ r.1 d n)).map (·.2) := by
  induction rules generalizing bs with
  | nil => simp only [pushMatching, Except.ok.injEq] at h; subst h; rfl
  | cons r rs ih =>
    obtain ⟨sel, b⟩ := r
    simp only [pushMatching, bind, Except.bind, pure, Except.pure] at h
    cases hm : S.matches_ sel d n with
    | error e => simp [hm] at h
    | ok m =>
      simp only [hm] at h
      cases hr : pushMatching d n rs with
      | error e => simp [hr] at h
      | ok bs' =>
        simp only [hr, Except.ok.injEq] at h
        subst h
        rw [ih hr]
        cases m <;> simp [hm, hit]

/-- comparison used for sorting -/
abbrev ruleLE (a b : S.Sel × Block) : Bool := S.specificity a.1 ≤ S.specificity b.1

/-- sorted rules with their index of appearance -/
def idxRules (rules : List (S.Sel × Block)) : List ((S.Sel × Block) × Nat) :=
  rules.zipIdx.mergeSort (List.zipIdxLE ruleLE)

theorem idxRules_map (rules : List (S.Sel × Block)) :
    (idxRules rules).map (·.1) = (StyleSet.finish ⟨rules⟩).rules :=
  List.mergeSort_zipIdx

theorem ruleLE_trans (a b c : S.Sel × Block) : ruleLE a b → ruleLE b c → ruleLE a c := by
  simp only [ruleLE, decide_eq_true_eq]; omega

theorem ruleLE_total (a b : S.Sel × Block) : (ruleLE a b || ruleLE b a) = true := by
  simp only [ruleLE, Bool.or_eq_true, decide_eq_true_eq]; omega

theorem mem_idxRules {rules : List (S.Sel × Block)} {r : (S.Sel × Block) × Nat} :
    r ∈ idxRules rules ↔ rules[r.2]? = some r.1 := by
  rw [idxRules, List.mem_mergeSort, List.mem_zipIdx_iff_getElem?]

/-- strictly increasing by (specificity, index) -/
theorem idxRules_pairwise (rules : List (S.Sel × Block)) :
    (idxRules rules).Pairwise fun a b => S.specificity a.1.1 < S.specificity b.1.1 ∨
      (S.specificity a.1.1 = S.specificity b.1.1 ∧ a.2 < b.2) := by
  have h1 : (idxRules rules).Pairwise fun a b => List.zipIdxLE ruleLE a b = true :=
    List.pairwise_mergeSort (List.zipIdxLE_trans ruleLE_trans) (List.zipIdxLE_total ruleLE_total) _
  have h2 : (idxRules rules).Nodup := by
    refine (List.mergeSort_perm _ _).nodup_iff.2 ?_
    have : (rules.zipIdx.map Prod.snd).Nodup := by
      rw [List.zipIdx_map_snd]
      exact List.nodup_range'
    exact (List.pairwise_map.1 this).imp fun h e => h (congrArg _ e)
  have h3 := h1.and h2
  refine List.Pairwise.imp_of_mem ?_ h3
  rintro a b ha hb ⟨hle, hne⟩
  simp only [List.zipIdxLE, ruleLE] at hle
  have hne2 : a.2 ≠ b.2 := by
    intro e
    apply hne
    rw [mem_idxRules] at ha hb
    rw [e, hb] at ha
    exact Prod.ext (Option.some.inj ha).symm e
  split at hle
  · rename_i h
    simp only [decide_eq_true_eq] at h
    split at hle
    · rename_i h'
      simp only [decide_eq_true_eq] at h' hle
      omega
    · rename_i h'
      simp only [decide_eq_true_eq] at h'
      omega
  · cases hle

/-- keyed declarations of a block -/
def Block.keyed (b : Block) (imp : Bool) (pre : List Nat) : List (List Nat × Decl) :=
  (b.entries.zipIdx.filter fun e => e.1.2 = imp).map fun e => (pre ++ [e.2], e.1.1)

/-- keyed declarations of a rule set -/
def keyedRules (d : Doc) (n : NodeId) (rules : List (S.Sel × Block)) (imp : Bool) (layer : Nat) :
    List (List Nat × Decl) :=
  ((idxRules rules).filter fun r => hit (S.matches_ r.1.1 d n)).flatMap fun r =>
    r.1.2.keyed imp [layer, 0, S.specificity r.1.1, r.2]

theorem Block.keyed_map (b : Block) (imp : Bool) (pre : List Nat) :
    (b.keyed imp pre).map (·.2) = b.declsWith imp := by
  unfold Block.keyed Block.declsWith
  rw [List.map_map]
  have : ∀ (es : List (Decl × Bool)) (k : Nat),
      ((es.zipIdx k).filter fun e => e.1.2 = imp).map ((fun e : List Nat × Decl => e.2) ∘
        fun e : (Decl × Bool) × Nat => (pre ++ [e.2], e.1.1)) =
      (es.filter fun e => e.2 = imp).map (·.1) := by
    intro es
    induction es with
    | nil => intro k; rfl
    | cons e es ih =>
      intro k
      rw [List.zipIdx_cons]
      by_cases h : e.2 = imp
      · simp only [List.filter_cons, h, decide_true, if_true, List.map_cons, ih,
          Function.comp_apply]
      · simp only [List.filter_cons, h, decide_false, Bool.false_eq_true, if_false, ih]
  exact this _ 0

theorem keyedRules_map (d : Doc) (n : NodeId) (rules : List (S.Sel × Block)) (imp : Bool)
    (layer : Nat) {bs : List Block}
    (h : pushMatching d n (StyleSet.finish ⟨rules⟩).rules = .ok bs) :
    (keyedRules d n rules imp layer).map (·.2) = bs.flatMap (·.declsWith imp) := by
  rw [pushMatching_ok h, ← idxRules_map, keyedRules, List.map_flatMap]
  simp only [Block.keyed_map]
  rw [List.filter_map, List.map_map, List.flatMap_map]
  rfl

theorem Block.keyed_pairwise (b : Block) (imp : Bool) (pre : List Nat) :
    (b.keyed imp pre).Pairwise fun x y => x.1 < y.1 := by
  unfold Block.keyed
  rw [List.pairwise_map]
  apply List.Pairwise.filter
  have : ∀ (es : List (Decl × Bool)) (k : Nat),
      (es.zipIdx k).Pairwise fun a b => a.2 < b.2 := by
    intro es k
    have : ((es.zipIdx k).map Prod.snd).Pairwise (· < ·) := by
      rw [List.zipIdx_map_snd]
      exact List.pairwise_lt_range'
    exact List.pairwise_map.1 this
  refine (this _ 0).imp ?_
  intro a b h
  dsimp only
  induction pre with
  | nil => simpa [List.cons_lt_cons_iff] using h
  | cons x xs ih => simpa [List.cons_lt_cons_iff] using ih

theorem Block.mem_keyed (b : Block) (imp : Bool) (pre : List Nat) (x : List Nat × Decl) :
    x ∈ b.keyed imp pre ↔ ∃ j, b.entries[j]? = some (x.2, imp) ∧ x.1 = pre ++ [j] := by
  unfold Block.keyed
  simp only [List.mem_map, List.mem_filter, List.mem_zipIdx_iff_getElem?, decide_eq_true_eq]
  constructor
  · rintro ⟨⟨⟨dd, i⟩, j⟩, ⟨h1, h2⟩, rfl⟩
    simp only at h1 h2
    subst h2
    exact ⟨j, h1, rfl⟩
  · rintro ⟨j, h1, h2⟩
    exact ⟨((x.2, imp), j), ⟨h1, rfl⟩, Prod.ext h2.symm rfl⟩

theorem keyedRules_pairwise (d : Doc) (n : NodeId) (rules : List (S.Sel × Block)) (imp : Bool)
    (layer : Nat) : (keyedRules d n rules imp layer).Pairwise fun x y => x.1 < y.1 := by
  unfold keyedRules
  rw [List.pairwise_flatMap]
  refine ⟨fun r _ => Block.keyed_pairwise _ _ _, ?_⟩
  apply List.Pairwise.filter
  refine (idxRules_pairwise rules).imp ?_
  intro a b hab x hx y hy
  rw [Block.mem_keyed] at hx hy
  obtain ⟨j, -, hj⟩ := hx
  obtain ⟨k, -, hk⟩ := hy
  rw [hj, hk]
  simp only [List.cons_append, List.cons_lt_cons_iff, lt_irrefl, false_or, true_and]
  tauto

theorem mem_keyedRules (d : Doc) (n : NodeId) (rules : List (S.Sel × Block)) (imp : Bool)
    (layer : Nat) (x : List Nat × Decl) :
    x ∈ keyedRules d n rules imp layer ↔ ∃ i j sel b, rules[i]? = some (sel, b) ∧
      S.matches_ sel d n = .ok true ∧ b.entries[j]? = some (x.2, imp) ∧
      x.1 = [layer, 0, S.specificity sel, i, j] := by
  unfold keyedRules
  simp only [List.mem_flatMap, List.mem_filter, mem_idxRules, hit_eq_true, Block.mem_keyed]
  constructor
  · rintro ⟨⟨⟨sel, b⟩, i⟩, ⟨h1, h2⟩, j, h3, h4⟩
    exact ⟨i, j, sel, b, h1, h2, h3, h4⟩
  · rintro ⟨i, j, sel, b, h1, h2, h3, h4⟩
    exact ⟨((sel, b), i), ⟨h1, h2⟩, j, h3, h4⟩

/-- all keyed declarations in the order of the cascade -/
def keyedAll (d : Doc) (n : NodeId) (ua author : List (S.Sel × Block)) (attr : Option Block) :
    List (List Nat × Decl) :=
  keyedRules d n ua false 0 ++
    (keyedRules d n author false 1 ++ attr.toList.flatMap (·.keyed false [1, 1, 0, 0])) ++
    (keyedRules d n author true 2 ++ attr.toList.flatMap (·.keyed true [2, 1, 0, 0])) ++
    keyedRules d n ua true 3

theorem mem_keyedAll (d : Doc) (n : NodeId) (ua author : List (S.Sel × Block))
    (attr : Option Block) (k : List Nat) (dd : Decl) :
    (k, dd) ∈ keyedAll d n ua author attr ↔ Applies ua author attr d n k dd := by
  unfold keyedAll
  simp only [List.mem_append, mem_keyedRules, List.mem_flatMap, Option.mem_toList,
    Block.mem_keyed]
  constructor
  · rintro (((h | (h | h)) | (h | h)) | h)
    · obtain ⟨i, j, sel, b, h1, h2, h3, h4⟩ := h
      subst h4
      exact .ua (imp := false) h1 h2 h3
    · obtain ⟨i, j, sel, b, h1, h2, h3, h4⟩ := h
      subst h4
      exact .author (imp := false) h1 h2 h3
    · obtain ⟨b, h1, j, h3, h4⟩ := h
      subst h4
      exact .attr (imp := false) h1 h3
    · obtain ⟨i, j, sel, b, h1, h2, h3, h4⟩ := h
      subst h4
      exact .author (imp := true) h1 h2 h3
    · obtain ⟨b, h1, j, h3, h4⟩ := h
      subst h4
      exact .attr (imp := true) h1 h3
    · obtain ⟨i, j, sel, b, h1, h2, h3, h4⟩ := h
      subst h4
      exact .ua (imp := true) h1 h2 h3
  · intro h
    cases h with
    | @ua i j sel b decl imp h1 h2 h3 =>
      cases imp
      · exact .inl (.inl (.inl ⟨i, j, sel, b, h1, h2, h3, rfl⟩))
      · exact .inr ⟨i, j, sel, b, h1, h2, h3, rfl⟩
    | @author i j sel b decl imp h1 h2 h3 =>
      cases imp
      · exact .inl (.inl (.inr (.inl ⟨i, j, sel, b, h1, h2, h3, rfl⟩)))
      · exact .inl (.inr (.inl ⟨i, j, sel, b, h1, h2, h3, rfl⟩))
    | @attr j b decl imp h1 h3 =>
      cases imp
      · exact .inl (.inl (.inr (.inr ⟨b, h1, j, h3, rfl⟩)))
      · exact .inl (.inr (.inr ⟨b, h1, j, h3, rfl⟩))

theorem keyedAll_pairwise (d : Doc) (n : NodeId) (ua author : List (S.Sel × Block))
    (attr : Option Block) : (keyedAll d n ua author attr).Pairwise fun x y => x.1 < y.1 := by
  unfold keyedAll
  have hattr : ∀ imp pre, (attr.toList.flatMap (·.keyed imp pre)).Pairwise fun x y => x.1 < y.1 := by
    intro imp pre
    cases attr with
    | none => exact List.Pairwise.nil
    | some b => simpa using Block.keyed_pairwise b imp pre
  simp only [List.pairwise_append, keyedRules_pairwise, hattr, true_and, List.mem_append,
    mem_keyedRules, List.mem_flatMap, Option.mem_toList, Block.mem_keyed]
  refine ⟨⟨⟨?_, ?_⟩, ?_, ?_⟩, ?_⟩
  · rintro x ⟨i, j, sel, b, -, -, -, h4⟩ y ⟨b', -, j', -, h4'⟩
    rw [h4, h4']; simp [List.cons_lt_cons_iff]
  · rintro x ⟨i, j, sel, b, -, -, -, h4⟩ y (⟨i', j', sel', b', -, -, -, h4'⟩ | ⟨b', -, j', -, h4'⟩) <;>
      rw [h4, h4'] <;> simp [List.cons_lt_cons_iff]
  · rintro x ⟨i, j, sel, b, -, -, -, h4⟩ y ⟨b', -, j', -, h4'⟩
    rw [h4, h4']; simp [List.cons_lt_cons_iff]
  · rintro x (⟨i, j, sel, b, -, -, -, h4⟩ | (⟨i, j, sel, b, -, -, -, h4⟩ | ⟨b, -, j, -, h4⟩)) y
      (⟨i', j', sel', b', -, -, -, h4'⟩ | ⟨b', -, j', -, h4'⟩) <;>
      rw [h4, h4'] <;> simp [List.cons_lt_cons_iff]
  · rintro x ((⟨i, j, sel, b, -, -, -, h4⟩ | (⟨i, j, sel, b, -, -, -, h4⟩ | ⟨b, -, j, -, h4⟩)) |
      (⟨i, j, sel, b, -, -, -, h4⟩ | ⟨b, -, j, -, h4⟩)) y ⟨i', j', sel', b', -, -, -, h4'⟩ <;>
      rw [h4, h4'] <;> simp [List.cons_lt_cons_iff]

theorem keyedAll_map (d : Doc) (n : NodeId) (ua author : List (S.Sel × Block))
    (attr : Option Block) {us as : List Block}
    (hu : pushMatching d n (StyleSet.finish ⟨ua⟩).rules = .ok us)
    (ha : pushMatching d n (StyleSet.finish ⟨author⟩).rules = .ok as) :
    (keyedAll d n ua author attr).map (·.2) = (Matching.mk us (as ++ attr.toList)).decls := by
  unfold keyedAll Matching.decls
  simp only [List.map_append, keyedRules_map d n ua _ _ hu, keyedRules_map d n author _ _ ha,
    List.map_flatMap, Block.keyed_map, List.flatMap_append]

/-- The last element about `p` is the winner. -/
theorem getLast_winner (parent : Style) (fs : ℚ) (p : Longhand) {KL : List (List Nat × Decl)}
    (hp : KL.Pairwise fun x y => x.1 < y.1) {k : List Nat} {w : Decl} (hw : (k, w) ∈ KL)
    (habout : w.longhand = p)
    (hlast : ∀ k' d', (k', d') ∈ KL → d'.longhand = p → k' = k ∧ d' = w ∨ k' < k) :
    ((KL.map (·.2)).filterMap (Decl.at parent fs p)).getLast? = Decl.at parent fs p w := by
  obtain ⟨l₁, l₂, rfl⟩ := List.append_of_mem hw
  have hl₂ : ∀ x ∈ l₂, Decl.at parent fs p x.2 = none := by
    intro x hx
    unfold Decl.at
    rw [dif_neg]
    intro hx'
    rw [List.pairwise_append] at hp
    have h1 : k < x.1 := (List.pairwise_cons.1 hp.2.1).1 x hx
    rcases hlast x.1 x.2 (by simp [hx]) hx' with ⟨h, -⟩ | h
    · rw [h] at h1; exact List.lt_irrefl _ h1
    · exact List.lt_irrefl _ (List.lt_trans h h1)
  rw [List.map_append, List.map_cons, List.filterMap_append, List.filterMap_cons]
  have : (l₂.map (·.2)).filterMap (Decl.at parent fs p) = [] := by
    rw [List.filterMap_eq_nil_iff]
    intro a ha
    obtain ⟨x, hx, rfl⟩ := List.mem_map.1 ha
    exact hl₂ x hx
  rw [this]
  have hs : (Decl.at parent fs p w).isSome = true := by
    rw [Decl.at_isSome]; simpa using habout
  cases h : Decl.at parent fs p w with
  | none => simp [h] at hs
  | some v => simp

end Sinab
