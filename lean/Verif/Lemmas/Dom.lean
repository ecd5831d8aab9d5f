import Verif.Model.Dom
import Verif.Spec.Forest
import Mathlib.Data.List.Basic
import Mathlib.Data.List.Nodup
import Mathlib.Logic.Relation
import Mathlib.Tactic.Linarith

namespace Sinab
namespace Doc

theorem Seg.append_iff (d : Doc) : ∀ (l1 l2 : List NodeId) (pv nx : Option NodeId),
    d.Seg pv (l1 ++ l2) nx ↔ d.Seg pv l1 (l2.head?.or nx) ∧ d.Seg (l1.getLast?.or pv) l2 nx := by
  intro l1
  induction l1 with
  | nil => intro l2 pv nx; simp [Seg]
  | cons c l1 ih =>
    intro l2 pv nx
    simp only [List.cons_append, Seg, ih]
    have h1 : (l1 ++ l2).head?.or nx = l1.head?.or (l2.head?.or nx) := by
      cases l1 <;> simp
    have h2 : (c :: l1).getLast?.or pv = l1.getLast?.or (some c) := by
      rcases List.eq_nil_or_concat l1 with h | ⟨l, a, h⟩
      · subst h; simp
      · subst h
        simp [List.getLast?_cons]
    rw [h1, h2]
    tauto

/-- segments only depend on the sibling links of their members -/
theorem Seg.congr {d d' : Doc} : ∀ {l : List NodeId} {pv nx : Option NodeId},
    (∀ x ∈ l, (d'.node x).previousSibling = (d.node x).previousSibling ∧
      (d'.node x).nextSibling = (d.node x).nextSibling) →
    d.Seg pv l nx → d'.Seg pv l nx := by
  intro l
  induction l with
  | nil => intros; trivial
  | cons c l ih =>
    intro pv nx h hs
    obtain ⟨h1, h2, h3⟩ := hs
    have hc := h c (by simp)
    exact ⟨hc.1.trans h1, hc.2.trans h2, ih (fun x hx => h x (by simp [hx])) h3⟩

theorem WF.mid {d : Doc} {kids} (h : d.WF kids) {p : NodeId} {l1 l2 : List NodeId} {c : NodeId}
    (hk : kids p = l1 ++ c :: l2) :
    (d.node c).previousSibling = l1.getLast? ∧ (d.node c).nextSibling = l2.head? := by
  have hs := h.seg p
  rw [hk, Seg.append_iff] at hs
  have := hs.2
  simp only [Seg, Option.or_none] at this
  exact ⟨this.1, this.2.1⟩

theorem WF.parent_of_mem {d : Doc} {kids} (h : d.WF kids) {p c : NodeId} (hc : c ∈ kids p) :
    (d.node c).parent = some p :=
  (h.par p c (h.bound p c hc).1 (h.bound p c hc).2).2 hc

theorem WF.mem_of_parent {d : Doc} {kids} (h : d.WF kids) {p c : NodeId} (hl : c < d.len)
    (hc : (d.node c).parent = some p) : c ∈ kids p :=
  (h.par p c (h.parBound c p hl hc) hl).1 hc

/-- a node is in one child list only -/
theorem WF.unique {d : Doc} {kids} (h : d.WF kids) {p q c : NodeId} (hp : c ∈ kids p)
    (hq : c ∈ kids q) : p = q := by
  have h1 := h.parent_of_mem hp
  have h2 := h.parent_of_mem hq
  rw [h1] at h2
  exact Option.some.inj h2

theorem WF.ne_parent {d : Doc} {kids} (h : d.WF kids) {p c : NodeId} (hc : c ∈ kids p) : c ≠ p := by
  obtain ⟨f, hf⟩ := h.depth
  intro he
  have := hf c p (h.bound p c hc).2 (h.parent_of_mem hc)
  subst he
  exact lt_irrefl _ this

/-! ## Pointwise description of the operations -/

/-- What `detach` computes, link by link. -/
structure Detached (d d' : Doc) (c : NodeId) : Prop where
  len : d'.len = d.len
  style : d'.styleElements = d.styleElements
  data : ∀ x, (d'.node x).data = (d.node x).data
  parent : ∀ x, (d'.node x).parent = if x = c then none else (d.node x).parent
  next : ∀ x, (d'.node x).nextSibling =
    if x = c then none else if (d.node c).previousSibling = some x then (d.node c).nextSibling
    else (d.node x).nextSibling
  prev : ∀ x, (d'.node x).previousSibling =
    if x = c then none else if (d.node c).nextSibling = some x then (d.node c).previousSibling
    else (d.node x).previousSibling
  first : ∀ x, (d'.node x).firstChild =
    if (d.node c).parent = some x ∧ (d.node c).previousSibling = none then (d.node c).nextSibling
    else (d.node x).firstChild
  last : ∀ x, (d'.node x).lastChild =
    if (d.node c).parent = some x ∧ (d.node c).nextSibling = none then (d.node c).previousSibling
    else (d.node x).lastChild

theorem modify_ok (d : Doc) (i : NodeId) (f : Node → Node) (h : i < d.len) :
    d.modify i f = .ok { d with node := Function.update d.node i (f (d.node i)) } := by
  simp [modify, h]

theorem get_ok (d : Doc) (i : NodeId) (h : i < d.len) : d.get i = .ok (d.node i) := by
  simp [get, h]

theorem detach_pointwise (d : Doc) (c : NodeId) (hc : c < d.len)
    (hn : ∀ x, (d.node c).nextSibling = some x → x < d.len ∧ x ≠ c)
    (hp : ∀ x, (d.node c).previousSibling = some x → x < d.len ∧ x ≠ c)
    (hq : ∀ x, (d.node c).parent = some x → x < d.len ∧ x ≠ c) :
    ∃ d', d.detach c = .ok d' ∧ Detached d d' c := by
  unfold detach
  rw [get_ok d c hc]
  simp only [bind, Except.bind]
  rw [modify_ok d c _ hc]
  simp only
  cases h1 : (d.node c).nextSibling with
  | some nx =>
    obtain ⟨hnx, hnc⟩ := hn nx h1
    simp only
    rw [modify_ok _ nx _ (by exact hnx)]
    simp only
    cases h2 : (d.node c).previousSibling with
    | some pv =>
      obtain ⟨hpx, hpc⟩ := hp pv h2
      simp only
      rw [modify_ok _ pv _ (by exact hpx)]
      refine ⟨_, rfl, ⟨rfl, rfl, ?_, ?_, ?_, ?_, ?_, ?_⟩⟩ <;> intro x <;>
        simp only [Function.update_apply, h1, h2] <;> split_ifs <;> simp_all
    | none =>
      simp only
      cases h3 : (d.node c).parent with
      | some p =>
        obtain ⟨hqx, hqc⟩ := hq p h3
        simp only
        rw [modify_ok _ p _ (by exact hqx)]
        refine ⟨_, rfl, ⟨rfl, rfl, ?_, ?_, ?_, ?_, ?_, ?_⟩⟩ <;> intro x <;>
          simp only [Function.update_apply, h1, h2, h3] <;> split_ifs <;> simp_all
      | none =>
        refine ⟨_, rfl, ⟨rfl, rfl, ?_, ?_, ?_, ?_, ?_, ?_⟩⟩ <;> intro x <;>
          simp only [Function.update_apply, h1, h2, h3] <;> split_ifs <;> simp_all
  | none =>
    simp only
    cases h3 : (d.node c).parent with
    | some p =>
      obtain ⟨hqx, hqc⟩ := hq p h3
      simp only
      rw [modify_ok _ p _ (by exact hqx)]
      simp only
      cases h2 : (d.node c).previousSibling with
      | some pv =>
        obtain ⟨hpx, hpc⟩ := hp pv h2
        simp only
        rw [modify_ok _ pv _ (by exact hpx)]
        refine ⟨_, rfl, ⟨rfl, rfl, ?_, ?_, ?_, ?_, ?_, ?_⟩⟩ <;> intro x <;>
          simp only [Function.update_apply, h1, h2, h3] <;> split_ifs <;> simp_all
      | none =>
        simp only
        rw [modify_ok _ p _ (by exact hqx)]
        refine ⟨_, rfl, ⟨rfl, rfl, ?_, ?_, ?_, ?_, ?_, ?_⟩⟩ <;> intro x <;>
          simp only [Function.update_apply, h1, h2, h3] <;> split_ifs <;> simp_all
    | none =>
      simp only [pure, Except.pure]
      cases h2 : (d.node c).previousSibling with
      | some pv =>
        obtain ⟨hpx, hpc⟩ := hp pv h2
        simp only
        rw [modify_ok _ pv _ (by exact hpx)]
        refine ⟨_, rfl, ⟨rfl, rfl, ?_, ?_, ?_, ?_, ?_, ?_⟩⟩ <;> intro x <;>
          simp only [Function.update_apply, h1, h2, h3] <;> split_ifs <;> simp_all
      | none =>
        refine ⟨_, rfl, ⟨rfl, rfl, ?_, ?_, ?_, ?_, ?_, ?_⟩⟩ <;> intro x <;>
          simp only [Function.update_apply, h1, h2, h3] <;> split_ifs <;> simp_all

theorem filter_ne_of_not_mem {l : List NodeId} {c : NodeId} (h : c ∉ l) :
    l.filter (· ≠ c) = l := by
  rw [List.filter_eq_self]
  intro a ha
  simp only [decide_not, Bool.not_eq_eq_eq_not, Bool.not_true, decide_eq_false_iff_not]
  rintro rfl; exact h ha

theorem filter_ne_mid {l1 l2 : List NodeId} {c : NodeId} (h : (l1 ++ c :: l2).Nodup) :
    (l1 ++ c :: l2).filter (· ≠ c) = l1 ++ l2 := by
  have h1 : c ∉ l1 := by
    intro hc
    rw [List.nodup_append] at h
    exact h.2.2 c hc c (by simp) rfl
  have h2 : c ∉ l2 := by
    rw [List.nodup_append, List.nodup_cons] at h
    exact h.2.1.1
  rw [List.filter_append, List.filter_cons, filter_ne_of_not_mem h1, filter_ne_of_not_mem h2]
  simp

theorem WF.sibling_facts {d : Doc} {kids} (h : d.WF kids) {c : NodeId} (hc : c < d.len) :
    (∀ x, (d.node c).nextSibling = some x → x < d.len ∧ x ≠ c) ∧
    (∀ x, (d.node c).previousSibling = some x → x < d.len ∧ x ≠ c) ∧
    (∀ x, (d.node c).parent = some x → x < d.len ∧ x ≠ c) := by
  cases hp : (d.node c).parent with
  | none =>
    obtain ⟨h1, h2⟩ := h.orphan c hc hp
    simp [h1, h2]
  | some p =>
    have hm := h.mem_of_parent hc hp
    obtain ⟨l1, l2, hl⟩ := List.append_of_mem hm
    obtain ⟨h1, h2⟩ := h.mid hl
    have hnd := h.nodup p
    rw [hl] at hnd
    refine ⟨?_, ?_, ?_⟩
    · intro x hx
      rw [h2] at hx
      have hx2 : x ∈ l2 := List.mem_of_mem_head? hx
      refine ⟨(h.bound p x (by rw [hl]; simp [hx2])).2, ?_⟩
      rintro rfl
      rw [List.nodup_append, List.nodup_cons] at hnd
      exact hnd.2.1.1 hx2
    · intro x hx
      rw [h1] at hx
      have hx1 : x ∈ l1 := List.mem_of_mem_getLast? hx
      refine ⟨(h.bound p x (by rw [hl]; simp [hx1])).2, ?_⟩
      rintro rfl
      rw [List.nodup_append] at hnd
      exact hnd.2.2 x hx1 x (by simp) rfl
    · intro x hx
      cases hx
      exact ⟨(h.bound p c hm).1, (h.ne_parent hm).symm⟩

/-- `detach` takes the node out of its child list and leaves everything else. -/
theorem WF.detach {d : Doc} {kids} (h : d.WF kids) {c : NodeId} (hc : c < d.len) :
    ∃ d', d.detach c = .ok d' ∧ Detached d d' c ∧ d'.WF (without kids c) := by
  obtain ⟨hn, hpv, hq⟩ := h.sibling_facts hc
  obtain ⟨d', hd', D⟩ := detach_pointwise d c hc hn hpv hq
  refine ⟨d', hd', D, ?_⟩
  have hmem : ∀ p x, x ∈ without kids c p ↔ x ∈ kids p ∧ x ≠ c := by
    intro p x; simp [without]
  cases hp : (d.node c).parent with
  | none =>
    obtain ⟨o1, o2⟩ := h.orphan c hc hp
    have hcn : ∀ p, c ∉ kids p := fun p hm => by
      rw [h.parent_of_mem hm] at hp; cases hp
    have hk : without kids c = kids := by
      funext p; exact filter_ne_of_not_mem (hcn p)
    have hpar : ∀ x, (d'.node x).parent = (d.node x).parent := by
      intro x; rw [D.parent]; split_ifs with hx
      · rw [hx, hp]
      · rfl
    have hnext : ∀ x, (d'.node x).nextSibling = (d.node x).nextSibling := by
      intro x; rw [D.next]; split_ifs with hx hy
      · rw [hx, o2]
      · rw [o1] at hy; cases hy
      · rfl
    have hprev : ∀ x, (d'.node x).previousSibling = (d.node x).previousSibling := by
      intro x; rw [D.prev]; split_ifs with hx hy
      · rw [hx, o1]
      · rw [o2] at hy; cases hy
      · rfl
    have hfirst : ∀ x, (d'.node x).firstChild = (d.node x).firstChild := by
      intro x; rw [D.first, if_neg]; rw [hp]; simp
    have hlast : ∀ x, (d'.node x).lastChild = (d.node x).lastChild := by
      intro x; rw [D.last, if_neg]; rw [hp]; simp
    rw [hk]
    refine ⟨?_, h.nodup, ?_, ?_, ?_, ?_, ?_, ?_, ?_⟩
    · rw [D.len]; exact h.bound
    · intro p x; rw [D.len, hpar]; exact h.par p x
    · intro x p; rw [D.len, hpar]; exact h.parBound x p
    · intro p; rw [D.len, hfirst]; exact h.first p
    · intro p; rw [D.len, hlast]; exact h.last p
    · intro p; exact Seg.congr (fun x _ => ⟨hprev x, hnext x⟩) (h.seg p)
    · intro x; rw [D.len, hpar, hprev, hnext]; exact h.orphan x
    · obtain ⟨f, hf⟩ := h.depth
      exact ⟨f, fun x p => by rw [D.len, hpar]; exact hf x p⟩
  | some q =>
    have hm := h.mem_of_parent hc hp
    obtain ⟨l1, l2, hl⟩ := List.append_of_mem hm
    obtain ⟨h1, h2⟩ := h.mid hl
    have hnd := h.nodup q
    rw [hl] at hnd
    have hkq : without kids c q = l1 ++ l2 := by
      unfold without; rw [hl, filter_ne_mid hnd]
    have hkp : ∀ p, p ≠ q → without kids c p = kids p := by
      intro p hpq
      exact filter_ne_of_not_mem (fun hcp => hpq (h.unique hcp hm))
    have hnd' := hnd
    rw [List.nodup_append, List.nodup_cons] at hnd'
    obtain ⟨hnd1, ⟨hc2, hnd2⟩, hdisj⟩ := hnd'
    have hc1 : c ∉ l1 := fun hx => hdisj c hx c (by simp) rfl
    refine ⟨?_, ?_, ?_, ?_, ?_, ?_, ?_, ?_, ?_⟩
    · intro p x hx
      rw [D.len]; exact h.bound p x ((hmem p x).1 hx).1
    · intro p; exact (h.nodup p).filter _
    · intro p x hp' hx
      rw [D.len] at hp' hx
      rw [hmem, D.parent]
      by_cases hxc : x = c
      · simp [hxc]
      · rw [if_neg hxc, h.par p x hp' hx]; simp [hxc]
    · intro x p hx hxp
      rw [D.len] at *
      rw [D.parent] at hxp
      split_ifs at hxp
      exact h.parBound x p hx hxp
    · intro p hp'
      rw [D.len] at hp'
      rw [D.first]
      by_cases hpq : p = q
      · subst hpq
        rw [hkq]
        cases l1 with
        | nil => rw [if_pos ⟨hp, by simpa using h1⟩, h2]; simp
        | cons a l1 =>
          rw [if_neg, h.first p hp', hl]
          · simp
          · rw [h1]; simp
      · rw [if_neg, hkp p hpq, h.first p hp']
        rw [hp]; simp [Ne.symm hpq]
    · intro p hp'
      rw [D.len] at hp'
      rw [D.last]
      by_cases hpq : p = q
      · subst hpq
        rw [hkq]
        cases l2 with
        | nil => rw [if_pos ⟨hp, by simpa using h2⟩, h1]; simp
        | cons a l2 =>
          rw [if_neg, h.last p hp', hl]
          · simp [List.getLast?_append, List.getLast?_cons]
          · rw [h2]; simp
      · rw [if_neg, hkp p hpq, h.last p hp']
        rw [hp]; simp [Ne.symm hpq]
    · intro p
      by_cases hpq : p = q
      · subst hpq
        have hs := h.seg p
        rw [hl] at hs
        rw [hkq]
        rw [Seg.append_iff] at hs ⊢
        obtain ⟨s1, s2⟩ := hs
        simp only [Option.or_none] at s1 s2 ⊢
        obtain ⟨-, -, s2⟩ := s2
        constructor
        · -- front part: only the last element gets a new `next`
          rcases List.eq_nil_or_concat l1 with e | ⟨l, a, e⟩
          · subst e; trivial
          · subst e
            simp only [List.concat_eq_append] at *
            rw [Seg.append_iff] at s1 ⊢
            obtain ⟨t1, t2⟩ := s1
            have hal : a ∉ l := by
              intro ha
              rw [List.nodup_append] at hnd1
              exact hnd1.2.2 a ha a (by simp) rfl
            constructor
            · refine Seg.congr (fun x hx => ?_) t1
              have hxc : x ≠ c := fun e => hc1 (by subst e; simp [hx])
              have hxa : x ≠ a := fun e => hal (by subst e; exact hx)
              have hx2 : (d.node c).nextSibling ≠ some x := by
                rw [h2]; intro e
                exact hdisj x (by simp [hx]) x (by simp [List.mem_of_mem_head? e]) rfl
              have hx1 : (d.node c).previousSibling ≠ some x := by
                rw [h1]; simp [Ne.symm hxa]
              rw [D.prev, D.next, if_neg hxc, if_neg hxc, if_neg hx2, if_neg hx1]
              exact ⟨rfl, rfl⟩
            · simp only [Seg] at t2 ⊢
              have hac : a ≠ c := fun e => hc1 (by subst e; simp)
              have hx2 : (d.node c).nextSibling ≠ some a := by
                rw [h2]; intro e
                exact hdisj a (by simp) a (by simp [List.mem_of_mem_head? e]) rfl
              refine ⟨?_, ?_, trivial⟩
              · rw [D.prev, if_neg hac, if_neg hx2]; exact t2.1
              · rw [D.next, if_neg hac, if_pos (by rw [h1]; simp), h2]; simp
        · cases l2 with
          | nil => trivial
          | cons b l2 =>
            simp only [Seg] at s2 ⊢
            have hbl : b ∉ l2 := (List.nodup_cons.1 hnd2).1
            have hbc : b ≠ c := fun e => hc2 (by subst e; simp)
            have hb1 : (d.node c).previousSibling ≠ some b := by
              rw [h1]; intro e
              exact hdisj b (List.mem_of_mem_getLast? e) b (by simp) rfl
            refine ⟨?_, ?_, ?_⟩
            · rw [D.prev, if_neg hbc, if_pos (by rw [h2]; simp), h1]
            · rw [D.next, if_neg hbc, if_neg hb1]; exact s2.2.1
            · refine Seg.congr (fun x hx => ?_) s2.2.2
              have hxc : x ≠ c := fun e => hc2 (by subst e; simp [hx])
              have hxb : x ≠ b := fun e => hbl (by subst e; exact hx)
              have hx2 : (d.node c).nextSibling ≠ some x := by
                rw [h2]; simp [Ne.symm hxb]
              have hx1 : (d.node c).previousSibling ≠ some x := by
                rw [h1]; intro e
                exact hdisj x (List.mem_of_mem_getLast? e) x (by simp [hx]) rfl
              rw [D.prev, D.next, if_neg hxc, if_neg hxc, if_neg hx2, if_neg hx1]
              exact ⟨rfl, rfl⟩
      · rw [hkp p hpq]
        refine Seg.congr (fun x hx => ?_) (h.seg p)
        have hxq : x ∉ kids q := fun hxq => hpq (h.unique hx hxq)
        rw [hl] at hxq
        have hxc : x ≠ c := fun e => hxq (by subst e; simp)
        have hx2 : (d.node c).nextSibling ≠ some x := by
          rw [h2]; intro e; exact hxq (by simp [List.mem_of_mem_head? e])
        have hx1 : (d.node c).previousSibling ≠ some x := by
          rw [h1]; intro e; exact hxq (by simp [List.mem_of_mem_getLast? e])
        rw [D.prev, D.next, if_neg hxc, if_neg hxc, if_neg hx2, if_neg hx1]
        exact ⟨rfl, rfl⟩
    · intro x hx hxp
      rw [D.len] at hx
      rw [D.parent] at hxp
      by_cases hxc : x = c
      · subst hxc; rw [D.prev, D.next]; simp
      · rw [if_neg hxc] at hxp
        obtain ⟨o1, o2⟩ := h.orphan x hx hxp
        have hxq : x ∉ kids q := fun hxq => by
          rw [h.parent_of_mem hxq] at hxp; cases hxp
        rw [hl] at hxq
        have hx2 : (d.node c).nextSibling ≠ some x := by
          rw [h2]; intro e; exact hxq (by simp [List.mem_of_mem_head? e])
        have hx1 : (d.node c).previousSibling ≠ some x := by
          rw [h1]; intro e; exact hxq (by simp [List.mem_of_mem_getLast? e])
        rw [D.prev, D.next, if_neg hxc, if_neg hxc, if_neg hx2, if_neg hx1]
        exact ⟨o1, o2⟩
    · obtain ⟨f, hf⟩ := h.depth
      refine ⟨f, fun x p hx hxp => ?_⟩
      rw [D.len] at hx
      rw [D.parent] at hxp
      split_ifs at hxp
      exact hf x p hx hxp

/-! ## Attaching an orphan -/

/-- What the rest of `append p c` computes when `c` has no parent. -/
structure Appended (d d' : Doc) (p c : NodeId) : Prop where
  len : d'.len = d.len
  style : d'.styleElements = d.styleElements
  data : ∀ x, (d'.node x).data = (d.node x).data
  parent : ∀ x, (d'.node x).parent = if x = c then some p else (d.node x).parent
  next : ∀ x, (d'.node x).nextSibling =
    if (d.node p).lastChild = some x then some c else (d.node x).nextSibling
  prev : ∀ x, (d'.node x).previousSibling =
    if x = c then (d.node p).lastChild else (d.node x).previousSibling
  first : ∀ x, (d'.node x).firstChild =
    if x = p ∧ (d.node p).lastChild = none then some c else (d.node x).firstChild
  last : ∀ x, (d'.node x).lastChild = if x = p then some c else (d.node x).lastChild

/-- the part of `append` after `detach` (dom/mod.rs 139-148) -/
def appendTail (d : Doc) (parent newChild : NodeId) : Except Panic Doc := do
  let d ← d.modify newChild fun x => { x with parent := some parent }
  let p ← d.get parent
  let d ← d.modify parent fun x => { x with lastChild := none }
  let d ← match p.lastChild with
    | some lastChild => do
      let d ← d.modify newChild fun x => { x with previousSibling := some lastChild }
      let l ← d.get lastChild
      check l.nextSibling.isNone
      d.modify lastChild fun x => { x with nextSibling := some newChild }
    | none => do
      let p ← d.get parent
      check p.firstChild.isNone
      d.modify parent fun x => { x with firstChild := some newChild }
  d.modify parent fun x => { x with lastChild := some newChild }

theorem append_eq (d : Doc) (p c : NodeId) :
    d.append p c = (d.detach c).bind fun d => d.appendTail p c := rfl

theorem appendTail_pointwise (d : Doc) (p c : NodeId) (hc : c < d.len) (hp : p < d.len)
    (hpc : p ≠ c) (horph : (d.node c).previousSibling = none)
    (hl : ∀ x, (d.node p).lastChild = some x → x < d.len ∧ x ≠ c ∧ (d.node x).nextSibling = none)
    (hf : (d.node p).lastChild = none → (d.node p).firstChild = none) :
    ∃ d', d.appendTail p c = .ok d' ∧ Appended d d' p c := by
  unfold appendTail
  simp only [bind, Except.bind]
  rw [modify_ok d c _ hc]
  simp only
  rw [get_ok _ p (by exact hp)]
  simp only
  rw [modify_ok _ p _ (by exact hp)]
  simp only [Function.update_apply, if_neg hpc]
  cases h1 : (d.node p).lastChild with
  | some l =>
    obtain ⟨hll, hlc, hln⟩ := hl l h1
    simp only
    rw [modify_ok _ c _ (by exact hc)]
    simp only
    rw [get_ok _ l (by exact hll)]
    simp only
    have hchk : check ((Function.update (Function.update (Function.update d.node c
        { d.node c with parent := some p }) p { d.node p with lastChild := none }) c
        { Function.update (Function.update d.node c { d.node c with parent := some p }) p
          { d.node p with lastChild := none } c with previousSibling := some l }) l).nextSibling.isNone
        = .ok () := by
      unfold check
      rw [if_pos]
      simp only [Function.update_apply, if_neg hlc]
      split_ifs <;> simp_all
    rw [hchk]
    simp only
    rw [modify_ok _ l _ (by exact hll)]
    simp only
    rw [modify_ok _ p _ (by exact hp)]
    refine ⟨_, rfl, ⟨rfl, rfl, ?_, ?_, ?_, ?_, ?_, ?_⟩⟩ <;> intro x <;>
      simp only [Function.update_apply, h1] <;> split_ifs <;> grind
  | none =>
    simp only
    have hfp := hf h1
    rw [get_ok _ p (by exact hp)]
    simp only
    have hchk : check ((Function.update (Function.update d.node c
        { d.node c with parent := some p }) p { d.node p with lastChild := none }
          p).firstChild.isNone) = .ok () := by
      unfold check
      rw [if_pos]
      simp [hfp]
    rw [hchk]
    simp only
    rw [modify_ok _ p _ (by exact hp)]
    simp only
    rw [modify_ok _ p _ (by exact hp)]
    refine ⟨_, rfl, ⟨rfl, rfl, ?_, ?_, ?_, ?_, ?_, ?_⟩⟩ <;> intro x <;>
      simp only [Function.update_apply, h1] <;> split_ifs <;> simp_all

/-- Depth function after hanging the orphan `c` below `p`. -/
theorem depth_attach {d d' : Doc} {p c : NodeId} (hlen : d'.len = d.len)
    (hpar : ∀ x, x < d.len → (d'.node x).parent = if x = c then some p else (d.node x).parent)
    (hanc : ¬ d.Anc c p)
    (hdepth : ∃ f : NodeId → Nat, ∀ x q, x < d.len → (d.node x).parent = some q → f q < f x) :
    ∃ f : NodeId → Nat, ∀ x q, x < d'.len → (d'.node x).parent = some q → f q < f x := by
  classical
  obtain ⟨f, hf⟩ := hdepth
  refine ⟨fun x => if d.Anc c x then f x + f p + 1 else f x, ?_⟩
  intro x q hx hq
  rw [hlen] at hx
  rw [hpar x hx] at hq
  by_cases hxc : x = c
  · subst hxc
    rw [if_pos rfl] at hq
    cases hq
    have : d.Anc x x := Relation.ReflTransGen.refl
    simp only [if_pos this, if_neg hanc]
    omega
  · rw [if_neg hxc] at hq
    have hlt := hf x q hx hq
    have hiff : d.Anc c x ↔ d.Anc c q := by
      constructor
      · intro ha
        rcases Relation.ReflTransGen.cases_head ha with e | ⟨y, ⟨_, hy⟩, hyc⟩
        · exact absurd e hxc
        · rw [hq] at hy; cases hy; exact hyc
      · intro ha; exact Relation.ReflTransGen.head ⟨hx, hq⟩ ha
    by_cases ha : d.Anc c x
    · simp only [if_pos ha, if_pos (hiff.1 ha)]; omega
    · simp only [if_neg ha, if_neg (fun e => ha (hiff.2 e))]; exact hlt

theorem WF.appendTail {d : Doc} {kids} (h : d.WF kids) {p c : NodeId} (hc : c < d.len)
    (hp : p < d.len) (horph : (d.node c).parent = none) (hanc : ¬ d.Anc c p) :
    ∃ d', d.appendTail p c = .ok d' ∧ Appended d d' p c ∧ d'.WF (withLast kids p c) := by
  have hpc : p ≠ c := by rintro rfl; exact hanc Relation.ReflTransGen.refl
  have hcn : ∀ q, c ∉ kids q := fun q hm => by
    rw [h.parent_of_mem hm] at horph; cases horph
  obtain ⟨o1, o2⟩ := h.orphan c hc horph
  have hlast := h.last p hp
  have hfirst := h.first p hp
  have hlm : ∀ x, (d.node p).lastChild = some x → x ∈ kids p := by
    intro x hx; rw [hlast] at hx; exact List.mem_of_mem_getLast? hx
  have hdecomp : ∀ x, (d.node p).lastChild = some x → ∃ l, kids p = l ++ [x] := by
    intro x hx
    rw [hlast] at hx
    rcases List.eq_nil_or_concat (kids p) with e | ⟨l, a, e⟩
    · rw [e] at hx; cases hx
    · rw [e] at hx
      simp only [List.concat_eq_append, List.getLast?_append, List.getLast?_singleton] at hx
      cases hx
      exact ⟨l, by simpa using e⟩
  obtain ⟨d', hd', D⟩ := appendTail_pointwise d p c hc hp hpc o1
    (fun x hx => by
      refine ⟨(h.bound p x (hlm x hx)).2, ?_, ?_⟩
      · rintro rfl; exact hcn p (hlm _ hx)
      · obtain ⟨l, hl⟩ := hdecomp x hx
        have := (h.mid (l1 := l) (l2 := []) (c := x) hl).2
        simpa using this)
    (fun hn => by
      rw [hlast, List.getLast?_eq_none_iff] at hn
      rw [hfirst, hn]; rfl)
  refine ⟨d', hd', D, ?_⟩
  have hmem : ∀ q x, x ∈ withLast kids p c q ↔ x ∈ kids q ∨ (q = p ∧ x = c) := by
    intro q x; unfold withLast; split_ifs with hq <;> simp [hq]
  refine ⟨?_, ?_, ?_, ?_, ?_, ?_, ?_, ?_, ?_⟩
  · intro q x hx
    rw [D.len]
    rcases (hmem q x).1 hx with hx | ⟨rfl, rfl⟩
    · exact h.bound q x hx
    · exact ⟨hp, hc⟩
  · intro q
    unfold withLast; split_ifs with hq
    · rw [List.nodup_append]
      refine ⟨h.nodup q, by simp, ?_⟩
      intro a ha b hb e
      simp only [List.mem_singleton] at hb
      subst hb; subst e; exact hcn q ha
    · exact h.nodup q
  · intro q x hq hx
    rw [D.len] at hq hx
    rw [hmem, D.parent]
    by_cases hxc : x = c
    · subst hxc; simp [hcn q, eq_comm]
    · rw [if_neg hxc, h.par q x hq hx]; simp [hxc]
  · intro x q hx hxq
    rw [D.len] at *
    rw [D.parent] at hxq
    split_ifs at hxq with hxc
    · cases hxq; exact hp
    · exact h.parBound x q hx hxq
  · intro q hq
    rw [D.len] at hq
    rw [D.first]
    unfold withLast
    by_cases hqp : q = p
    · subst hqp
      rw [if_pos rfl]
      cases hk : kids q with
      | nil => rw [if_pos ⟨rfl, by rw [hlast, hk]; rfl⟩]; rfl
      | cons a l =>
        rw [if_neg, hfirst, hk]
        · rfl
        · rw [hlast, hk]; simp [List.getLast?_cons]
    · rw [if_neg (fun e => hqp e.1), if_neg hqp, h.first q hq]
  · intro q hq
    rw [D.len] at hq
    rw [D.last]
    unfold withLast
    by_cases hqp : q = p
    · rw [if_pos hqp, if_pos hqp]; simp
    · rw [if_neg hqp, if_neg hqp, h.last q hq]
  · intro q
    unfold withLast
    by_cases hqp : q = p
    · subst hqp
      rw [if_pos rfl, Seg.append_iff]
      constructor
      · have hs := h.seg q
        rcases List.eq_nil_or_concat (kids q) with e | ⟨l, a, e⟩
        · rw [e]; trivial
        · have hla : (d.node q).lastChild = some a := by rw [hlast, e]; simp
          have hnd := h.nodup q
          rw [e] at hs hnd ⊢
          simp only [List.concat_eq_append] at *
          have hal : a ∉ l := by
            intro ha
            rw [List.nodup_append] at hnd
            exact hnd.2.2 a ha a (by simp) rfl
          rw [Seg.append_iff] at hs ⊢
          constructor
          · refine Seg.congr (fun x hx => ?_) hs.1
            have hxc : x ≠ c := fun e' => hcn q (by rw [e]; subst e'; simp [hx])
            have hxa : (d.node q).lastChild ≠ some x := by
              rw [hla]; intro e'; cases e'; exact hal hx
            rw [D.prev, D.next, if_neg hxc, if_neg hxa]
            exact ⟨rfl, rfl⟩
          · simp only [Seg] at hs ⊢
            have hac : a ≠ c := fun e' => hcn q (by rw [e]; subst e'; simp)
            refine ⟨?_, ?_, trivial⟩
            · rw [D.prev, if_neg hac]; exact hs.2.1
            · rw [D.next, if_pos hla]; simp
      · simp only [Seg]
        refine ⟨?_, ?_, trivial⟩
        · rw [D.prev, if_pos rfl, hlast]; simp
        · rw [D.next, if_neg, o2]
          · simp
          · intro e; exact hcn q (hlm _ e)
    · rw [if_neg hqp]
      refine Seg.congr (fun x hx => ?_) (h.seg q)
      have hxc : x ≠ c := fun e => hcn q (by subst e; exact hx)
      have hxl : (d.node p).lastChild ≠ some x := fun e => hqp (h.unique hx (hlm x e))
      rw [D.prev, D.next, if_neg hxc, if_neg hxl]
      exact ⟨rfl, rfl⟩
  · intro x hx hxp
    rw [D.len] at hx
    rw [D.parent] at hxp
    split_ifs at hxp with hxc
    obtain ⟨q1, q2⟩ := h.orphan x hx hxp
    have hxl : (d.node p).lastChild ≠ some x := fun e => by
      rw [h.parent_of_mem (hlm x e)] at hxp; cases hxp
    rw [D.prev, D.next, if_neg hxc, if_neg hxl]
    exact ⟨q1, q2⟩
  · exact depth_attach D.len (fun x _ => D.parent x) hanc h.depth

/-- ancestors after detaching were ancestors before -/
theorem Detached.anc {d d' : Doc} {c : NodeId} (D : Detached d d' c) {a x : NodeId}
    (h : d'.Anc a x) : d.Anc a x := by
  refine Relation.ReflTransGen.mono ?_ _ _ h
  rintro y q ⟨hy, hq⟩
  rw [D.len] at hy
  rw [D.parent] at hq
  split_ifs at hq
  exact ⟨hy, hq⟩

/-- `append` moves `c` to the end of the child list of `p`. -/
theorem WF.append {d : Doc} {kids} (h : d.WF kids) {p c : NodeId} (hc : c < d.len)
    (hp : p < d.len) (hanc : ¬ d.Anc c p) :
    ∃ d', d.append p c = .ok d' ∧ d'.len = d.len ∧ d'.styleElements = d.styleElements ∧
      (∀ x, (d'.node x).data = (d.node x).data) ∧
      (∀ x, (d'.node x).parent = if x = c then some p else (d.node x).parent) ∧
      d'.WF (withLast (without kids c) p c) := by
  obtain ⟨d1, h1, D1, W1⟩ := h.detach hc
  obtain ⟨d2, h2, D2, W2⟩ := W1.appendTail (p := p) (c := c) (by rw [D1.len]; exact hc)
    (by rw [D1.len]; exact hp) (by rw [D1.parent, if_pos rfl]) (fun ha => hanc (D1.anc ha))
  refine ⟨d2, ?_, ?_, ?_, ?_, ?_, W2⟩
  · rw [append_eq, h1]; exact h2
  · rw [D2.len, D1.len]
  · rw [D2.style, D1.style]
  · intro x; rw [D2.data, D1.data]
  · intro x; rw [D2.parent, D1.parent]; split_ifs <;> rfl

/-! ## insert_before -/

/-- What the rest of `insert_before s c` computes when `c` has no parent and `s`
has one. -/
structure Inserted (d d' : Doc) (s c : NodeId) : Prop where
  len : d'.len = d.len
  style : d'.styleElements = d.styleElements
  data : ∀ x, (d'.node x).data = (d.node x).data
  parent : ∀ x, (d'.node x).parent = if x = c then (d.node s).parent else (d.node x).parent
  next : ∀ x, (d'.node x).nextSibling =
    if x = c then some s else if (d.node s).previousSibling = some x then some c
    else (d.node x).nextSibling
  prev : ∀ x, (d'.node x).previousSibling =
    if x = c then (d.node s).previousSibling else if x = s then some c
    else (d.node x).previousSibling
  first : ∀ x, (d'.node x).firstChild =
    if (d.node s).parent = some x ∧ (d.node s).previousSibling = none then some c
    else (d.node x).firstChild
  last : ∀ x, (d'.node x).lastChild = (d.node x).lastChild

/-- the part of `insert_before` after `detach` (dom/mod.rs 153-163) -/
def insertTail (d : Doc) (sibling newSibling : NodeId) : Except Panic Doc := do
  let s ← d.get sibling
  let d ← d.modify newSibling fun x => { x with parent := s.parent }
  let d ← d.modify newSibling fun x => { x with nextSibling := some sibling }
  let s ← d.get sibling
  let d ← d.modify sibling fun x => { x with previousSibling := none }
  let d ← match s.previousSibling with
    | some pv => do
      let d ← d.modify newSibling fun x => { x with previousSibling := some pv }
      let l ← d.get pv
      check (l.nextSibling = some sibling)
      d.modify pv fun x => { x with nextSibling := some newSibling }
    | none => do
      let s ← d.get sibling
      match s.parent with
      | some parent => do
        let p ← d.get parent
        check (p.firstChild = some sibling)
        d.modify parent fun x => { x with firstChild := some newSibling }
      | none => pure d
  d.modify sibling fun x => { x with previousSibling := some newSibling }

theorem insertBefore_eq (d : Doc) (s c : NodeId) :
    d.insertBefore s c = (d.detach c).bind fun d => d.insertTail s c := rfl

theorem insertTail_pointwise (d : Doc) (s c p : NodeId) (hc : c < d.len) (hs : s < d.len)
    (hsc : s ≠ c) (hp : (d.node s).parent = some p) (hpl : p < d.len) (hpc : p ≠ c) (hps : p ≠ s)
    (horph : (d.node c).previousSibling = none)
    (hv : ∀ x, (d.node s).previousSibling = some x →
      x < d.len ∧ x ≠ c ∧ x ≠ s ∧ (d.node x).nextSibling = some s)
    (hf : (d.node s).previousSibling = none → (d.node p).firstChild = some s) :
    ∃ d', d.insertTail s c = .ok d' ∧ Inserted d d' s c := by
  unfold insertTail
  simp only [bind, Except.bind]
  rw [get_ok d s hs]
  simp only
  rw [modify_ok d c _ hc]
  simp only
  rw [modify_ok _ c _ (by exact hc)]
  simp only
  rw [get_ok _ s (by exact hs)]
  simp only
  rw [modify_ok _ s _ (by exact hs)]
  simp only [Function.update_apply, if_neg hsc]
  cases h1 : (d.node s).previousSibling with
  | some l =>
    obtain ⟨hll, hlc, hls, hln⟩ := hv l h1
    simp only
    rw [modify_ok _ c _ (by exact hc)]
    simp only
    rw [get_ok _ l (by exact hll)]
    simp only [Function.update_apply, if_neg hlc, if_neg hls, hln]
    have hck : check (decide True) = .ok () := by simp [check]
    rw [hck]
    simp only
    rw [modify_ok _ l _ (by exact hll)]
    simp only
    rw [modify_ok _ s _ (by exact hs)]
    refine ⟨_, rfl, ⟨rfl, rfl, ?_, ?_, ?_, ?_, ?_, ?_⟩⟩ <;> intro x <;>
      simp only [Function.update_apply, h1, hp] <;> split_ifs <;> simp_all
  | none =>
    simp only
    have hfp := hf h1
    rw [get_ok _ s (by exact hs)]
    simp only [Function.update_apply, if_true]
    simp only [hp]
    rw [get_ok _ p (by exact hpl)]
    simp only [Function.update_apply, if_neg hps, if_neg hpc, hfp]
    have hck : check (decide True) = .ok () := by simp [check]
    rw [hck]
    simp only
    rw [modify_ok _ p _ (by exact hpl)]
    simp only
    rw [modify_ok _ s _ (by exact hs)]
    refine ⟨_, rfl, ⟨rfl, rfl, ?_, ?_, ?_, ?_, ?_, ?_⟩⟩ <;> intro x <;>
      simp only [Function.update_apply, h1, hp] <;> split_ifs <;> simp_all

theorem insertIn_not_mem {s c : NodeId} : ∀ {l : List NodeId}, s ∉ l → insertIn s c l = l := by
  intro l
  induction l with
  | nil => intros; rfl
  | cons a l ih =>
    intro h
    simp only [List.mem_cons, not_or] at h
    simp only [insertIn, if_neg (Ne.symm h.1), ih h.2]

theorem insertIn_mid {s c : NodeId} {l2 : List NodeId} : ∀ {l1 : List NodeId}, s ∉ l1 →
    insertIn s c (l1 ++ s :: l2) = l1 ++ c :: s :: l2 := by
  intro l1
  induction l1 with
  | nil => intro _; simp [insertIn]
  | cons a l ih =>
    intro h
    simp only [List.mem_cons, not_or] at h
    simp only [List.cons_append, insertIn, if_neg (Ne.symm h.1), ih h.2]

theorem WF.insertTail {d : Doc} {kids} (h : d.WF kids) {s c p : NodeId} (hc : c < d.len)
    (hs : s < d.len) (horph : (d.node c).parent = none) (hp : (d.node s).parent = some p)
    (hanc : ¬ d.Anc c p) :
    ∃ d', d.insertTail s c = .ok d' ∧ Inserted d d' s c ∧ d'.WF (withBefore kids s c) := by
  have hpc : p ≠ c := by rintro rfl; exact hanc Relation.ReflTransGen.refl
  have hsc : s ≠ c := by rintro rfl; rw [hp] at horph; cases horph
  have hcn : ∀ q, c ∉ kids q := fun q hm => by
    rw [h.parent_of_mem hm] at horph; cases horph
  obtain ⟨o1, o2⟩ := h.orphan c hc horph
  have hm := h.mem_of_parent hs hp
  have hps : p ≠ s := (h.ne_parent hm).symm
  obtain ⟨l1, l2, hl⟩ := List.append_of_mem hm
  obtain ⟨h1, h2⟩ := h.mid hl
  have hnd := h.nodup p
  rw [hl] at hnd
  have hnd' := hnd
  rw [List.nodup_append, List.nodup_cons] at hnd'
  obtain ⟨hnd1, ⟨hs2, hnd2⟩, hdisj⟩ := hnd'
  have hs1 : s ∉ l1 := fun hx => hdisj s hx s (by simp) rfl
  have hpl := h.parBound s p hs hp
  have hpvm : ∀ x, (d.node s).previousSibling = some x → x ∈ kids p := by
    intro x hx; rw [h1] at hx; rw [hl]; simp [List.mem_of_mem_getLast? hx]
  obtain ⟨d', hd', D⟩ := insertTail_pointwise d s c p hc hs hsc hp hpl hpc hps o1
    (fun x hx => by
      refine ⟨(h.bound p x (hpvm x hx)).2, ?_, ?_, ?_⟩
      · rintro rfl; exact hcn p (hpvm _ hx)
      · rintro rfl; rw [h1] at hx; exact hs1 (List.mem_of_mem_getLast? hx)
      · rw [h1] at hx
        rcases List.eq_nil_or_concat l1 with e | ⟨l, a, e⟩
        · rw [e] at hx; cases hx
        · subst e
          simp only [List.concat_eq_append, List.getLast?_append, List.getLast?_singleton] at hx
          cases hx
          have := (h.mid (p := p) (l1 := l) (l2 := s :: l2) (c := x) (by rw [hl]; simp)).2
          simpa using this)
    (fun hn => by
      rw [h1, List.getLast?_eq_none_iff] at hn
      rw [h.first p hpl, hl, hn]; rfl)
  refine ⟨d', hd', D, ?_⟩
  have hkp : withBefore kids s c p = l1 ++ c :: s :: l2 := by
    unfold withBefore; rw [hl, insertIn_mid hs1]
  have hkq : ∀ q, q ≠ p → withBefore kids s c q = kids q := by
    intro q hq; exact insertIn_not_mem (fun hx => hq (h.unique hx hm))
  have hmem : ∀ q x, x ∈ withBefore kids s c q ↔ x ∈ kids q ∨ (q = p ∧ x = c) := by
    intro q x
    by_cases hq : q = p
    · subst hq; rw [hkp, hl]; simp; tauto
    · rw [hkq q hq]; simp [hq]
  refine ⟨?_, ?_, ?_, ?_, ?_, ?_, ?_, ?_, ?_⟩
  · intro q x hx
    rw [D.len]
    rcases (hmem q x).1 hx with hx | ⟨rfl, rfl⟩
    · exact h.bound q x hx
    · exact ⟨hpl, hc⟩
  · intro q
    by_cases hq : q = p
    · subst hq
      rw [hkp, List.nodup_append, List.nodup_cons]
      have hc' := hcn q
      rw [hl] at hc'
      simp only [List.mem_append, List.mem_cons, not_or] at hc'
      refine ⟨hnd1, ⟨by simp [hc'], by rw [List.nodup_cons]; exact ⟨hs2, hnd2⟩⟩, ?_⟩
      intro a ha b hb e
      subst e
      rcases List.mem_cons.1 hb with e | hb
      · subst e; exact hc'.1 ha
      · exact hdisj a ha a hb rfl
    · rw [hkq q hq]; exact h.nodup q
  · intro q x hq hx
    rw [D.len] at hq hx
    rw [hmem, D.parent]
    by_cases hxc : x = c
    · subst hxc; simp [hcn q, hp, eq_comm]
    · rw [if_neg hxc, h.par q x hq hx]; simp [hxc]
  · intro x q hx hxq
    rw [D.len] at *
    rw [D.parent] at hxq
    split_ifs at hxq with hxc
    · rw [hp] at hxq; cases hxq; exact hpl
    · exact h.parBound x q hx hxq
  · intro q hq
    rw [D.len] at hq
    rw [D.first]
    by_cases hqp : q = p
    · subst hqp
      rw [hkp]
      cases l1 with
      | nil => rw [if_pos ⟨hp, by simpa using h1⟩]; rfl
      | cons a l1 =>
        rw [if_neg, h.first q hq, hl]
        · simp
        · rw [h1]; simp [List.getLast?_cons]
    · rw [if_neg, hkq q hqp, h.first q hq]
      rw [hp]; simp [Ne.symm hqp]
  · intro q hq
    rw [D.len] at hq
    rw [D.last, h.last q hq]
    by_cases hqp : q = p
    · subst hqp
      rw [hkp, hl]; simp [List.getLast?_append, List.getLast?_cons]
    · rw [hkq q hqp]
  · intro q
    by_cases hqp : q = p
    · subst hqp
      have hsg := h.seg q
      rw [hl, Seg.append_iff] at hsg
      rw [hkp, Seg.append_iff]
      obtain ⟨s1, s2⟩ := hsg
      simp only [Option.or_none] at s1 s2 ⊢
      have hnot : ∀ x ∈ kids q, x ≠ c := fun x hx e => hcn q (by subst e; exact hx)
      constructor
      · rcases List.eq_nil_or_concat l1 with e | ⟨l, a, e⟩
        · subst e; trivial
        · subst e
          simp only [List.concat_eq_append] at *
          rw [Seg.append_iff] at s1 ⊢
          obtain ⟨t1, t2⟩ := s1
          have hal : a ∉ l := by
            intro ha
            rw [List.nodup_append] at hnd1
            exact hnd1.2.2 a ha a (by simp) rfl
          constructor
          · refine Seg.congr (fun x hx => ?_) t1
            have hxc : x ≠ c := hnot x (by rw [hl]; simp [hx])
            have hxs : x ≠ s := fun e => hs1 (by subst e; simp [hx])
            have hxa : (d.node s).previousSibling ≠ some x := by
              rw [h1]; simp; intro e; subst e; exact hal hx
            rw [D.prev, D.next, if_neg hxc, if_neg hxc, if_neg hxs, if_neg hxa]
            exact ⟨rfl, rfl⟩
          · simp only [Seg] at t2 ⊢
            have hac : a ≠ c := hnot a (by rw [hl]; simp)
            have has : a ≠ s := fun e => hs1 (by subst e; simp)
            refine ⟨?_, ?_, trivial⟩
            · rw [D.prev, if_neg hac, if_neg has]; exact t2.1
            · rw [D.next, if_neg hac, if_pos (by rw [h1]; simp)]; simp
      · simp only [Seg] at s2 ⊢
        refine ⟨?_, ?_, ?_, ?_, ?_⟩
        · rw [D.prev, if_pos rfl, h1]
        · rw [D.next, if_pos rfl]; simp
        · rw [D.prev, if_neg hsc, if_pos rfl]
        · rw [D.next, if_neg hsc, if_neg]
          · exact s2.2.1
          · rw [h1]; intro e; exact hs1 (List.mem_of_mem_getLast? e)
        · refine Seg.congr (fun x hx => ?_) s2.2.2
          have hxc : x ≠ c := hnot x (by rw [hl]; simp [hx])
          have hxs : x ≠ s := fun e => hs2 (by subst e; exact hx)
          have hx1 : (d.node s).previousSibling ≠ some x := by
            rw [h1]; intro e
            exact hdisj x (List.mem_of_mem_getLast? e) x (by simp [hx]) rfl
          rw [D.prev, D.next, if_neg hxc, if_neg hxc, if_neg hxs, if_neg hx1]
          exact ⟨rfl, rfl⟩
    · rw [hkq q hqp]
      refine Seg.congr (fun x hx => ?_) (h.seg q)
      have hxc : x ≠ c := fun e => hcn q (by subst e; exact hx)
      have hxs : x ≠ s := fun e => hqp (h.unique hx (by subst e; exact hm))
      have hx1 : (d.node s).previousSibling ≠ some x := fun e => hqp (h.unique hx (hpvm x e))
      rw [D.prev, D.next, if_neg hxc, if_neg hxc, if_neg hxs, if_neg hx1]
      exact ⟨rfl, rfl⟩
  · intro x hx hxp
    rw [D.len] at hx
    rw [D.parent] at hxp
    by_cases hxc : x = c
    · rw [if_pos hxc, hp] at hxp; cases hxp
    · rw [if_neg hxc] at hxp
      obtain ⟨q1, q2⟩ := h.orphan x hx hxp
      have hxs : x ≠ s := by rintro rfl; rw [hp] at hxp; cases hxp
      have hx1 : (d.node s).previousSibling ≠ some x := fun e => by
        rw [h.parent_of_mem (hpvm x e)] at hxp; cases hxp
      rw [D.prev, D.next, if_neg hxc, if_neg hxc, if_neg hxs, if_neg hx1]
      exact ⟨q1, q2⟩
  · exact depth_attach D.len (fun x _ => by rw [D.parent, hp]) hanc h.depth

/-- `insert_before` moves `c` directly in front of `s`. -/
theorem WF.insertBefore {d : Doc} {kids} (h : d.WF kids) {s c p : NodeId} (hc : c < d.len)
    (hs : s < d.len) (hsc : s ≠ c) (hp : (d.node s).parent = some p) (hanc : ¬ d.Anc c p) :
    ∃ d', d.insertBefore s c = .ok d' ∧ d'.len = d.len ∧ d'.styleElements = d.styleElements ∧
      (∀ x, (d'.node x).data = (d.node x).data) ∧
      (∀ x, (d'.node x).parent = if x = c then some p else (d.node x).parent) ∧
      d'.WF (withBefore (without kids c) s c) := by
  obtain ⟨d1, h1, D1, W1⟩ := h.detach hc
  have hp1 : (d1.node s).parent = some p := by rw [D1.parent, if_neg hsc, hp]
  obtain ⟨d2, h2, D2, W2⟩ := W1.insertTail (s := s) (c := c) (p := p) (by rw [D1.len]; exact hc)
    (by rw [D1.len]; exact hs) (by rw [D1.parent, if_pos rfl]) hp1 (fun ha => hanc (D1.anc ha))
  refine ⟨d2, ?_, ?_, ?_, ?_, ?_, W2⟩
  · rw [insertBefore_eq, h1]; exact h2
  · rw [D2.len, D1.len]
  · rw [D2.style, D1.style]
  · intro x; rw [D2.data, D1.data]
  · intro x; rw [D2.parent, hp1, D1.parent]; split_ifs <;> rfl

/-! ## New nodes and changes of data -/

theorem WF.kids_of_ge {d : Doc} {kids} (h : d.WF kids) {p : NodeId} (hp : d.len ≤ p) :
    kids p = [] := by
  rw [List.eq_nil_iff_forall_not_mem]
  intro c hc
  exact absurd (h.bound p c hc).1 (Nat.not_lt.2 hp)

theorem WF.not_mem_of_ge {d : Doc} {kids} (h : d.WF kids) {p c : NodeId} (hc : d.len ≤ c) :
    c ∉ kids p := fun hm => absurd (h.bound p c hm).2 (Nat.not_lt.2 hc)

theorem WF.newNode {d : Doc} {kids} (h : d.WF kids) (data : NodeData) :
    (d.newNode data).1.WF kids := by
  have hnode : ∀ x, x < d.len → (d.newNode data).1.node x = d.node x := by
    intro x hx
    show Function.update d.node d.len (Node.new data) x = d.node x
    rw [Function.update_of_ne (Nat.ne_of_lt hx)]
  have hnew : (d.newNode data).1.node d.len = Node.new data := by
    show Function.update d.node d.len (Node.new data) d.len = _
    rw [Function.update_self]
  have hlen : (d.newNode data).1.len = d.len + 1 := rfl
  have hcase : ∀ x, x < d.len + 1 → x < d.len ∨ x = d.len := by intro x hx; omega
  refine ⟨?_, h.nodup, ?_, ?_, ?_, ?_, ?_, ?_, ?_⟩
  · intro p c hc
    have := h.bound p c hc
    rw [hlen]
    exact ⟨Nat.lt_succ_of_lt this.1, Nat.lt_succ_of_lt this.2⟩
  · intro p c hp hc
    rw [hlen] at hp hc
    rcases hcase c hc with hc | rfl
    · rw [hnode c hc]
      rcases hcase p hp with hp | rfl
      · exact h.par p c hp hc
      · constructor
        · intro hh; exact absurd (h.parBound c _ hc hh) (Nat.lt_irrefl _)
        · intro hh; rw [h.kids_of_ge (le_refl _)] at hh; cases hh
    · rw [hnew]
      constructor
      · intro hh; cases hh
      · intro hh; exact absurd hh (h.not_mem_of_ge (le_refl _))
  · intro c p hc hp
    rw [hlen] at *
    rcases hcase c hc with hc | rfl
    · rw [hnode c hc] at hp; exact Nat.lt_succ_of_lt (h.parBound c p hc hp)
    · rw [hnew] at hp; cases hp
  · intro p hp
    rw [hlen] at hp
    rcases hcase p hp with hp | rfl
    · rw [hnode p hp, h.first p hp]
    · rw [hnew, h.kids_of_ge (le_refl _)]; rfl
  · intro p hp
    rw [hlen] at hp
    rcases hcase p hp with hp | rfl
    · rw [hnode p hp, h.last p hp]
    · rw [hnew, h.kids_of_ge (le_refl _)]; rfl
  · intro p
    refine Seg.congr (fun x hx => ?_) (h.seg p)
    rw [hnode x (h.bound p x hx).2]; exact ⟨rfl, rfl⟩
  · intro c hc hp
    rw [hlen] at hc
    rcases hcase c hc with hc | rfl
    · rw [hnode c hc] at *; exact h.orphan c hc hp
    · rw [hnew]; exact ⟨rfl, rfl⟩
  · obtain ⟨f, hf⟩ := h.depth
    refine ⟨f, fun c p hc hp => ?_⟩
    rw [hlen] at hc
    rcases hcase c hc with hc | rfl
    · rw [hnode c hc] at hp; exact hf c p hc hp
    · rw [hnew] at hp; cases hp

/-- well-formedness only depends on the links of allocated nodes -/
theorem WF.of_links {d d' : Doc} {kids} (h : d.WF kids) (hlen : d'.len = d.len)
    (hl : ∀ x, (d'.node x).parent = (d.node x).parent ∧
      (d'.node x).nextSibling = (d.node x).nextSibling ∧
      (d'.node x).previousSibling = (d.node x).previousSibling ∧
      (d'.node x).firstChild = (d.node x).firstChild ∧
      (d'.node x).lastChild = (d.node x).lastChild) : d'.WF kids := by
  refine ⟨?_, h.nodup, ?_, ?_, ?_, ?_, ?_, ?_, ?_⟩
  · rw [hlen]; exact h.bound
  · intro p c; rw [hlen, (hl c).1]; exact h.par p c
  · intro c p; rw [hlen, (hl c).1]; exact h.parBound c p
  · intro p; rw [hlen, (hl p).2.2.2.1]; exact h.first p
  · intro p; rw [hlen, (hl p).2.2.2.2]; exact h.last p
  · intro p; exact Seg.congr (fun x _ => ⟨(hl x).2.2.1, (hl x).2.1⟩) (h.seg p)
  · intro c; rw [hlen, (hl c).1, (hl c).2.1, (hl c).2.2.1]; exact h.orphan c
  · obtain ⟨f, hf⟩ := h.depth
    exact ⟨f, fun c p => by rw [hlen, (hl c).1]; exact hf c p⟩

/-- changing the data of a node keeps the forest -/
theorem modify_data (d : Doc) (i : NodeId) (hi : i < d.len) (data : NodeData) :
    ∃ d', d.modify i (fun x => { x with data := data }) = .ok d' ∧ d'.len = d.len ∧
      d'.styleElements = d.styleElements ∧
      (∀ x, (d'.node x).data = if x = i then data else (d.node x).data) ∧
      (∀ x, (d'.node x).parent = (d.node x).parent ∧
        (d'.node x).nextSibling = (d.node x).nextSibling ∧
        (d'.node x).previousSibling = (d.node x).previousSibling ∧
        (d'.node x).firstChild = (d.node x).firstChild ∧
        (d'.node x).lastChild = (d.node x).lastChild) := by
  refine ⟨_, modify_ok d i _ hi, rfl, rfl, ?_, ?_⟩ <;> intro x <;>
    simp only [Function.update_apply] <;> split_ifs <;> simp_all

theorem WF_new : Doc.new.WF (fun _ => []) := by
  refine ⟨?_, ?_, ?_, ?_, ?_, ?_, ?_, ?_, ⟨fun _ => 0, ?_⟩⟩ <;>
    simp [Doc.new, Node.new, Seg]

end Doc
end Sinab
