import Verif.Spec.RHeap

/-! Proof rules for programs that use the memory of R. -/

namespace Sinab

open RM

/-! ### Terms under changes of the heap -/

mutual

theorem Denotes.mono {objs objs' : Nat → Option RObj}
    (h : ∀ r o, objs r = some o → o.kind.frozen = true → objs' r = some o) {v : RVal} {t : RTm} :
    Denotes objs v t → Denotes objs' v t
  | .nul => .nul
  | .perm s => .perm s
  | .ref h1 h2 h3 h4 => .ref (h _ _ h1 h2) h2 (DenotesAll.mono h h3) (DenotesAll.mono h h4)

theorem DenotesAll.mono {objs objs' : Nat → Option RObj}
    (h : ∀ r o, objs r = some o → o.kind.frozen = true → objs' r = some o)
    {vs : List (String × RVal)} {ts : List (String × RTm)} :
    DenotesAll objs vs ts → DenotesAll objs' vs ts
  | .nil => .nil
  | .cons h1 h2 => .cons (Denotes.mono h h1) (DenotesAll.mono h h2)

end

mutual

theorem Denotes.keep {objs objs' : Nat → Option RObj} {roots : List RVal}
    (h : ∀ r, Reach objs roots r → objs' r = objs r) {v : RVal} {t : RTm}
    (hv : ∀ r, v = .ref r → Reach objs roots r) : Denotes objs v t → Denotes objs' v t
  | .nul => .nul
  | .perm s => .perm s
  | .ref h1 h2 h3 h4 =>
    .ref ((h _ (hv _ rfl)).trans h1) h2
      (DenotesAll.keep h (fun _ _ hm => .step (hv _ rfl) h1 (List.mem_append_left _ hm)) h3)
      (DenotesAll.keep h (fun _ _ hm => .step (hv _ rfl) h1 (List.mem_append_right _ hm)) h4)

theorem DenotesAll.keep {objs objs' : Nat → Option RObj} {roots : List RVal}
    (h : ∀ r, Reach objs roots r → objs' r = objs r) {vs : List (String × RVal)}
    {ts : List (String × RTm)} (hv : ∀ n r, (n, .ref r) ∈ vs → Reach objs roots r) :
    DenotesAll objs vs ts → DenotesAll objs' vs ts
  | .nil => .nil
  | .cons (n := n) h1 h2 =>
    .cons (Denotes.keep h (fun r hr => hv n r (List.mem_cons.2 (Or.inl (by rw [hr])))) h1)
      (DenotesAll.keep h (fun n r hm => hv n r (List.mem_cons_of_mem _ hm)) h2)

end

theorem Top.keep {objs objs' : Nat → Option RObj} {roots : List RVal}
    (h : ∀ r, Reach objs roots r → objs' r = objs r) {v : RVal} {t : RTm} (hv : v ∈ roots)
    (ht : Top objs v t) : Top objs' v t := by
  cases ht with
  | nul => exact .nul
  | perm s => exact .perm s
  | ref h1 h2 h3 =>
    have hr := Reach.root (objs := objs) hv
    exact .ref ((h _ hr).trans h1)
      (h2.keep h fun n r hm => .step hr h1 (List.mem_append_left _ hm))
      (h3.keep h fun n r hm => .step hr h1 (List.mem_append_right _ hm))

theorem Top.mono {objs objs' : Nat → Option RObj}
    (h : ∀ r o, objs r = some o → objs' r = some o) {v : RVal} {t : RTm}
    (ht : Top objs v t) : Top objs' v t := by
  cases ht with
  | nul => exact .nul
  | perm s => exact .perm s
  | ref h1 h2 h3 =>
    exact .ref (h _ _ h1) (h2.mono fun r o hr _ => h r o hr) (h3.mono fun r o hr _ => h r o hr)

theorem Denotes.top {objs : Nat → Option RObj} {v : RVal} {t : RTm} (h : Denotes objs v t) :
    Top objs v t := by
  cases h with
  | nul => exact .nul
  | perm s => exact .perm s
  | ref h1 h2 h3 h4 => exact .ref h1 h3 h4

/-- the term is not under construction -/
def RTm.done : RTm → Bool
  | .node k _ _ => k.frozen
  | _ => true

theorem Top.shows {objs : Nat → Option RObj} {v : RVal} {t : RTm} (h : Top objs v t)
    (ht : t.done = true) : Denotes objs v t := by
  cases h with
  | nul => exact .nul
  | perm s => exact .perm s
  | ref h1 h3 h4 => exact .ref h1 ht h3 h4

theorem Top.obj {objs : Nat → Option RObj} {v : RVal} {k : RKind} {ts as : List (String × RTm)}
    (h : Top objs v (.node k ts as)) : ∃ r o, v = .ref r ∧ objs r = some o ∧ o.kind = k := by
  cases h with
  | ref h1 _ _ => exact ⟨_, _, rfl, h1, rfl⟩

theorem Top.ne {objs : Nat → Option RObj} {v w : RVal} {k k' : RKind}
    {ts as ts' as' : List (String × RTm)} (h : Top objs v (.node k ts as))
    (h' : Top objs w (.node k' ts' as')) (hk : k ≠ k') : v ≠ w := by
  rintro rfl
  obtain ⟨r, o, rfl, h1, rfl⟩ := h.obj
  obtain ⟨r', o', e, h2, rfl⟩ := h'.obj
  cases e
  rw [h1] at h2
  cases h2
  exact hk rfl

/-- an object other than the one that is modified -/
theorem Top.put {objs : Nat → Option RObj} {v : RVal} {t : RTm} (h : Top objs v t) {r : Nat}
    {o o' : RObj} (hr : objs r = some o) (ho : o.kind.frozen = false) (hne : v ≠ .ref r) :
    Top (fun x => if x = r then some o' else objs x) v t := by
  have hm : ∀ q b, objs q = some b → b.kind.frozen = true →
      (fun x => if x = r then some o' else objs x) q = some b := by
    intro q b hq hb
    have : q ≠ r := by
      rintro rfl
      rw [hr] at hq
      cases hq
      rw [ho] at hb
      cases hb
    simp [this, hq]
  cases h with
  | nul => exact .nul
  | perm s => exact .perm s
  | @ref q b ts as h1 h2 h3 =>
    have : q ≠ r := by rintro rfl; exact hne rfl
    exact .ref (by simp [this, h1]) (h2.mono hm) (h3.mono hm)

theorem DenotesAll.length {objs : Nat → Option RObj} {vs : List (String × RVal)}
    {ts : List (String × RTm)} (h : DenotesAll objs vs ts) : vs.length = ts.length := by
  induction vs generalizing ts with
  | nil => cases h; rfl
  | cons v vs ih => cases h with | cons h1 h2 => simp [ih h2]

theorem DenotesAll.get {objs : Nat → Option RObj} : ∀ {vs : List (String × RVal)}
    {ts : List (String × RTm)}, DenotesAll objs vs ts → ∀ (i : Nat) {n t}, ts[i]? = some (n, t) →
    ∃ v, vs[i]? = some (n, v) ∧ Denotes objs v t := by
  intro vs
  induction vs with
  | nil => intro ts h i n t hi; cases h; simp at hi
  | cons v vs ih =>
    intro ts h i n t hi
    cases h with
    | cons h1 h2 =>
      cases i with
      | zero => simp only [List.getElem?_cons_zero, Option.some.injEq] at hi; cases hi; exact ⟨_, rfl, h1⟩
      | succ i => simpa using ih h2 i (by simpa using hi)

theorem DenotesAll.set {objs : Nat → Option RObj} : ∀ {vs : List (String × RVal)}
    {ts : List (String × RTm)}, DenotesAll objs vs ts → ∀ (i : Nat) (n : String) {v t},
    Denotes objs v t → DenotesAll objs (vs.set i (n, v)) (ts.set i (n, t)) := by
  intro vs
  induction vs with
  | nil => intro ts h i n v t hv; cases h; exact .nil
  | cons v vs ih =>
    intro ts h i n v t hv
    cases h with
    | cons h1 h2 =>
      cases i with
      | zero => exact .cons hv h2
      | succ i => exact .cons h1 (ih h2 i n hv)

theorem DenotesAll.replicate (objs : Nat → Option RObj) (n : Nat) :
    DenotesAll objs (List.replicate n ("", .nul)) (List.replicate n ("", .nul)) := by
  induction n with
  | zero => exact .nil
  | succ n ih => exact .cons .nul ih

theorem DenotesAll.append {objs : Nat → Option RObj} : ∀ {vs ws : List (String × RVal)}
    {ts us : List (String × RTm)}, DenotesAll objs vs ts → DenotesAll objs ws us →
    DenotesAll objs (vs ++ ws) (ts ++ us) := by
  intro vs
  induction vs with
  | nil => intro ws ts us h hw; cases h; exact hw
  | cons v vs ih => intro ws ts us h hw; cases h with | cons h1 h2 => exact .cons h1 (ih h2 hw)

/-! ### Reasoning about programs -/

/-- the program ends without failure, in a state with the property `Q` -/
def Runs {α : Type} (m : RM α) (h : RHeap) (Q : α → RHeap → Prop) : Prop :=
  ∃ a h', m h = .ok (a, h') ∧ Q a h'

theorem Runs.bind {α β : Type} {m : RM α} {f : α → RM β} {h : RHeap} {Q : β → RHeap → Prop}
    (hm : Runs m h fun a h' => Runs (f a) h' Q) : Runs (m >>= f) h Q := by
  obtain ⟨a, h', e, b, h'', e', q⟩ := hm
  refine ⟨b, h'', ?_, q⟩
  simp only [Bind.bind, StateT.bind, e, Except.bind]
  exact e'

theorem Runs.pure {α : Type} {a : α} {h : RHeap} {Q : α → RHeap → Prop} (q : Q a h) :
    Runs (Pure.pure a) h Q := ⟨a, h, rfl, q⟩

theorem Runs.imp {α : Type} {m : RM α} {h : RHeap} {Q Q' : α → RHeap → Prop} (hm : Runs m h Q)
    (hq : ∀ a h', Q a h' → Q' a h') : Runs m h Q' := by
  obtain ⟨a, h', e, q⟩ := hm
  exact ⟨a, h', e, hq _ _ q⟩

/-- State of the memory: protection stack `S`, preserved objects `P`, devices `D`, and
protected values `K` with what they stand for. -/
structure St (h : RHeap) (S P : List RVal) (D : Nat → Option CDev) (K : List (RVal × RTm)) :
    Prop where
  fresh : h.Fresh
  stack : h.stack = S
  precious : h.precious = P
  devs : h.devs = D
  facts : ∀ q ∈ K, Top h.objs q.1 q.2
  rooted : ∀ q ∈ K, q.1 ∈ S ++ P

variable {h : RHeap} {S P : List RVal} {D : Nat → Option CDev} {K : List (RVal × RTm)}

theorem St.sub (hs : St h S P D K) {K' : List (RVal × RTm)} (hk : ∀ q ∈ K', q ∈ K) :
    St h S P D K' :=
  ⟨hs.fresh, hs.stack, hs.precious, hs.devs, fun q hq => hs.facts q (hk q hq),
    fun q hq => hs.rooted q (hk q hq)⟩

open Classical in
theorem runs_gc (hs : St h S P D K) (extra : List RVal) :
    Runs (gc extra) h fun _ h' => St h' S P D K ∧
      (∀ v t, v ∈ extra → Top h.objs v t → Top h'.objs v t) ∧
      ∀ vs ts, (∀ p ∈ vs, p.2 ∈ extra) → DenotesAll h.objs vs ts → DenotesAll h'.objs vs ts := by
  have key : ∀ r, Reach h.objs (h.stack ++ h.precious ++ extra) r →
      (if h.adv h.clock r = true ∧ ¬ Reach h.objs (h.stack ++ h.precious ++ extra) r then none
        else h.objs r) = h.objs r := by
    intro r hr
    rw [if_neg (by tauto)]
  refine ⟨(), _, rfl, ⟨⟨?_, ?_⟩, hs.stack, hs.precious, hs.devs, ?_, hs.rooted⟩, ?_, ?_⟩
  · intro r hr
    have := hs.fresh.objs r hr
    simp [this]
  · exact hs.fresh.devs
  · intro q hq
    refine Top.keep key ?_ (hs.facts q hq)
    rw [hs.stack, hs.precious]
    exact List.mem_append_left _ (hs.rooted q hq)
  · intro v t hv ht
    exact Top.keep key (List.mem_append_right _ hv) ht
  · intro vs ts hv ht
    refine DenotesAll.keep key (fun n r hm => .root (List.mem_append_right _ ?_)) ht
    exact hv _ hm

theorem runs_alloc (hs : St h S P D K) (kind : RKind) {slots : List (String × RVal)}
    {ts : List (String × RTm)} (hsl : DenotesAll h.objs slots ts) :
    Runs (alloc kind slots) h fun v h' => St h' S P D K ∧ Top h'.objs v (.node kind ts []) ∧
      (∃ r, v = .ref r) ∧ ∀ q ∈ K, q.1 ≠ v := by
  refine Runs.bind ((runs_gc hs (slots.map (·.2))).imp ?_)
  rintro - h1 ⟨s1, -, hall⟩
  have hsl1 := hall slots ts (fun p hp => List.mem_map_of_mem hp) hsl
  have hm : ∀ r o, h1.objs r = some o →
      (if r = h1.next then some (⟨kind, slots, []⟩ : RObj) else h1.objs r) = some o := by
    intro r o hr
    have : r ≠ h1.next := by
      rintro rfl
      rw [s1.fresh.objs _ (Nat.le_refl _)] at hr
      cases hr
    simp [this, hr]
  refine ⟨_, _, rfl, ⟨⟨?_, s1.fresh.devs⟩, s1.stack, s1.precious, s1.devs, ?_, s1.rooted⟩, ?_,
    ⟨_, rfl⟩, ?_⟩
  · intro r hr
    have hr : h1.next + 1 ≤ r := hr
    have h2 := s1.fresh.objs r (by omega)
    have h3 : r ≠ h1.next := by omega
    simp [h2, h3]
  · intro q hq
    exact (s1.facts q hq).mono hm
  · have := Top.ref (objs := fun r => if r = h1.next then some (⟨kind, slots, []⟩ : RObj) else h1.objs r)
      (r := h1.next) (o := ⟨kind, slots, []⟩) (ts := ts) (as := []) (by simp)
      (hsl1.mono fun r o hr _ => hm r o hr) .nil
    exact this
  · rintro ⟨v, t⟩ hq e
    have := s1.facts _ hq
    simp only at e
    subst e
    cases this with
    | ref h2 _ _ =>
      rw [s1.fresh.objs _ (Nat.le_refl _)] at h2
      cases h2

theorem runs_access {v : RVal} {k : RKind} {ts as : List (String × RTm)}
    (ht : Top h.objs v (.node k ts as)) :
    Runs (access v) h fun o h' => h' = h ∧ o.kind = k ∧ DenotesAll h.objs o.slots ts ∧
      DenotesAll h.objs o.attrs as ∧ ∃ r, v = .ref r ∧ h.objs r = some o := by
  cases ht with
  | ref h1 h2 h3 =>
    refine ⟨_, h, ?_, rfl, rfl, h2, h3, _, rfl, h1⟩
    simp [access, h1]

theorem runs_usable {v : RVal} {t : RTm} (ht : Denotes h.objs v t) :
    Runs (usable v) h fun _ h' => h' = h := by
  cases ht with
  | nul => exact ⟨(), h, rfl, rfl⟩
  | perm s => exact ⟨(), h, rfl, rfl⟩
  | ref h1 h2 _ _ => exact ⟨(), h, by simp [usable, h1, h2], rfl⟩

theorem runs_usableAll {vs : List (String × RVal)} : ∀ {ts : List (String × RTm)},
    DenotesAll h.objs vs ts → Runs (usableAll vs) h fun _ h' => h' = h := by
  induction vs with
  | nil => intro ts _; exact .pure rfl
  | cons v vs ih =>
    intro ts ht
    cases ht with
    | cons h1 h2 =>
      refine Runs.bind ((runs_usable h1).imp ?_)
      rintro - h' rfl
      exact ih h2

theorem runs_protect (hs : St h S P D K) {v : RVal} {t : RTm} (ht : Top h.objs v t) :
    Runs (protect v) h fun _ h' => St h' (v :: S) P D ((v, t) :: K) := by
  have fin : Runs (fun h => .ok ((), { h with stack := v :: h.stack }) : RM Unit) h
      fun _ h' => St h' (v :: S) P D ((v, t) :: K) := by
    refine ⟨(), _, rfl, ⟨⟨hs.fresh.objs, hs.fresh.devs⟩, by simp [hs.stack], hs.precious, hs.devs,
      ?_, ?_⟩⟩
    · intro q hq
      rcases List.mem_cons.1 hq with rfl | hq
      · exact ht
      · exact hs.facts q hq
    · intro q hq
      rcases List.mem_cons.1 hq with rfl | hq
      · simp
      · have := hs.rooted q hq
        simp only [List.cons_append, List.mem_cons]
        exact Or.inr this
  unfold protect
  cases ht with
  | nul => exact fin
  | perm s => exact fin
  | ref h1 h2 h3 =>
    refine Runs.bind ((runs_access (.ref h1 h2 h3)).imp ?_)
    rintro o h' ⟨rfl, -⟩
    exact fin

theorem runs_unprotect (hs : St h S P D K) (n : Nat) {S' : List RVal} {K' : List (RVal × RTm)}
    (hn : n ≤ S.length) (hS : S.drop n = S') (hK : ∀ q ∈ K', q ∈ K ∧ q.1 ∈ S' ++ P) :
    Runs (unprotect n) h fun _ h' => St h' S' P D K' ∧ h'.objs = h.objs := by
  refine ⟨(), { h with stack := h.stack.drop n }, ?_, ⟨⟨hs.fresh.objs, hs.fresh.devs⟩, ?_,
    hs.precious, hs.devs, fun q hq => hs.facts q (hK q hq).1, fun q hq => (hK q hq).2⟩, rfl⟩
  · simp [unprotect, hs.stack, hn]
  · simp [hs.stack, hS]

theorem runs_preserve (hs : St h S P D K) {v : RVal} {k : RKind} {ts as : List (String × RTm)}
    (ht : Top h.objs v (.node k ts as)) :
    Runs (preserve v) h fun _ h' => St h' S (v :: P) D ((v, .node k ts as) :: K) := by
  unfold preserve
  refine Runs.bind ((runs_access ht).imp ?_)
  rintro o h' ⟨rfl, -⟩
  refine ⟨(), _, rfl, ⟨⟨hs.fresh.objs, hs.fresh.devs⟩, hs.stack, by simp [hs.precious], hs.devs,
      ?_, ?_⟩⟩
  · intro q hq
    rcases List.mem_cons.1 hq with rfl | hq
    · exact ht
    · exact hs.facts q hq
  · intro q hq
    rcases List.mem_cons.1 hq with rfl | hq
    · simp
    · have := hs.rooted q hq
      simp only [List.mem_append, List.mem_cons] at this ⊢
      tauto

theorem runs_releaseObject (hs : St h S P D K) {v : RVal} {P' : List RVal}
    {K' : List (RVal × RTm)} (hP : P.erase v = P') (hK : ∀ q ∈ K', q ∈ K ∧ q.1 ∈ S ++ P') :
    Runs (releaseObject v) h fun _ h' => St h' S P' D K' ∧ h'.objs = h.objs := by
  refine ⟨(), _, rfl, ⟨⟨hs.fresh.objs, hs.fresh.devs⟩, hs.stack, ?_, hs.devs,
    fun q hq => hs.facts q (hK q hq).1, fun q hq => (hK q hq).2⟩, rfl⟩
  simp [hs.precious, hP]

theorem put_state (hs : St h S P D K) {r : Nat} {o o' : RObj} (hr : h.objs r = some o)
    (ho : o.kind.frozen = false) {K' : List (RVal × RTm)} (hK : ∀ q ∈ K', q ∈ K ∧ q.1 ≠ .ref r) :
    Runs (put r o') h fun _ h' => St h' S P D K' ∧
      h'.objs = (fun x => if x = r then some o' else h.objs x) := by
  refine ⟨(), _, rfl, ⟨⟨?_, hs.fresh.devs⟩, hs.stack, hs.precious, hs.devs, ?_,
    fun q hq => hs.rooted q (hK q hq).1⟩, rfl⟩
  · intro x hx
    have h1 := hs.fresh.objs x hx
    have : x ≠ r := by rintro rfl; rw [h1] at hr; cases hr
    simp [this, h1]
  · intro q hq
    exact (hs.facts q (hK q hq).1).put hr ho (hK q hq).2

theorem mono_put {objs : Nat → Option RObj} {r : Nat} {o o' : RObj} (hr : objs r = some o)
    (ho : o.kind.frozen = false) : ∀ q b, objs q = some b → b.kind.frozen = true →
      (fun x => if x = r then some o' else objs x) q = some b := by
  intro q b hq hb
  have : q ≠ r := by
    rintro rfl
    rw [hr] at hq
    cases hq
    rw [ho] at hb
    cases hb
  simp [this, hq]

theorem runs_setElt {v : RVal} {k : RKind} {ts as : List (String × RTm)}
    (hs : St h S P D ((v, .node k ts as) :: K)) (hne : ∀ q ∈ K, q.1 ≠ v) (hk : k.frozen = false)
    {i : Nat} {n : String} {t₀ : RTm} (hi : ts[i]? = some (n, t₀)) {x : RVal} {t : RTm}
    (hx : Denotes h.objs x t) :
    Runs (setElt v i x) h fun _ h' => St h' S P D ((v, .node k (ts.set i (n, t)) as) :: K) := by
  unfold setElt
  refine Runs.bind ((runs_access (hs.facts _ List.mem_cons_self)).imp ?_)
  rintro o h' ⟨rfl, rfl, h2, h3, r, e, h4⟩
  subst e
  rw [if_neg (by simp [hk])]
  refine Runs.bind ((runs_usable hx).imp ?_)
  rintro - h' rfl
  obtain ⟨w, hw, -⟩ := h2.get i hi
  simp only [hw]
  refine (put_state hs h4 hk (K' := K)
    (fun q hq => ⟨List.mem_cons_of_mem _ hq, hne q hq⟩)).imp ?_
  rintro - h1 ⟨s1, e1⟩
  refine ⟨s1.fresh, s1.stack, s1.precious, s1.devs, ?_, ?_⟩
  · intro q hq
    rcases List.mem_cons.1 hq with rfl | hq
    · rw [e1]
      have hm := mono_put (o' := { o with slots := o.slots.set i (n, x) }) h4 hk
      exact Top.ref (o := { o with slots := o.slots.set i (n, x) }) (by simp)
        ((h2.set i n hx).mono hm) (h3.mono hm)
    · exact s1.facts q hq
  · intro q hq
    rcases List.mem_cons.1 hq with rfl | hq
    · exact hs.rooted (.ref r, .node o.kind ts as) List.mem_cons_self
    · exact s1.rooted q hq

theorem runs_setTag {v : RVal} {k : RKind} {ts as : List (String × RTm)}
    (hs : St h S P D ((v, .node k ts as) :: K)) (hne : ∀ q ∈ K, q.1 ≠ v) (hk : k.frozen = false)
    {i : Nat} {n₀ n : String} {t : RTm} (hi : ts[i]? = some (n₀, t)) :
    Runs (setTag v i n) h fun _ h' => St h' S P D ((v, .node k (ts.set i (n, t)) as) :: K) := by
  unfold setTag
  refine Runs.bind ((runs_access (hs.facts _ List.mem_cons_self)).imp ?_)
  rintro o h' ⟨rfl, rfl, h2, h3, r, e, h4⟩
  subst e
  rw [if_neg (by simp [hk])]
  obtain ⟨w, hw, hx⟩ := h2.get i hi
  simp only [hw]
  refine (put_state hs h4 hk (K' := K)
    (fun q hq => ⟨List.mem_cons_of_mem _ hq, hne q hq⟩)).imp ?_
  rintro - h1 ⟨s1, e1⟩
  refine ⟨s1.fresh, s1.stack, s1.precious, s1.devs, ?_, ?_⟩
  · intro q hq
    rcases List.mem_cons.1 hq with rfl | hq
    · rw [e1]
      have hm := mono_put (o' := { o with slots := o.slots.set i (n, w) }) h4 hk
      exact Top.ref (o := { o with slots := o.slots.set i (n, w) }) (by simp)
        ((h2.set i n hx).mono hm) (h3.mono hm)
    · exact s1.facts q hq
  · intro q hq
    rcases List.mem_cons.1 hq with rfl | hq
    · exact hs.rooted (.ref r, .node o.kind ts as) List.mem_cons_self
    · exact s1.rooted q hq

theorem runs_getElt {v : RVal} {k : RKind} {ts as : List (String × RTm)}
    (ht : Top h.objs v (.node k ts as)) {i : Nat} {n : String} {t : RTm}
    (hi : ts[i]? = some (n, t)) :
    Runs (getElt v i) h fun x h' => h' = h ∧ Denotes h.objs x t := by
  unfold getElt
  refine Runs.bind ((runs_access ht).imp ?_)
  rintro o h' ⟨rfl, rfl, h2, h3, r, e, h4⟩
  obtain ⟨w, hw, hx⟩ := h2.get i hi
  simp only [hw]
  exact .pure ⟨rfl, hx⟩

theorem runs_install (hs : St h S P D K) (n : String) :
    Runs (install n) h fun v h' => v = .perm n ∧ St h' S P D K :=
  .bind ((runs_gc hs []).imp fun _ _ s => .pure ⟨rfl, s.1⟩)

theorem runs_findFun (hs : St h S P D K) (n : String) (env : RVal) :
    Runs (findFun n env) h fun v h' => v = .perm n ∧ St h' S P D K :=
  .bind ((runs_install hs n).imp fun _ _ s =>
    .bind ((runs_gc s.2 []).imp fun _ _ s => .pure ⟨rfl, s.1⟩))

theorem runs_mkString (hs : St h S P D K) (s : String) :
    Runs (mkString s) h fun v h' => St h' S P D K ∧ Top h'.objs v (.str s) :=
  (runs_alloc hs (.str s) .nil).imp fun _ _ q => ⟨q.1, q.2.1⟩

theorem runs_scalarReal (hs : St h S P D K) (x : ℚ) :
    Runs (scalarReal x) h fun v h' => St h' S P D K ∧ Top h'.objs v (.reals [x]) :=
  (runs_alloc hs (.real [x]) .nil).imp fun _ _ q => ⟨q.1, q.2.1⟩

theorem runs_scalarInteger (hs : St h S P D K) (n : Int) :
    Runs (scalarInteger n) h fun v h' => St h' S P D K ∧ Top h'.objs v (.int n) :=
  (runs_alloc hs (.int n) .nil).imp fun _ _ q => ⟨q.1, q.2.1⟩

theorem runs_allocVec (hs : St h S P D K) (kind : RKind) (n : Nat) :
    Runs (allocVec kind n) h fun v h' => St h' S P D K ∧
      Top h'.objs v (.node kind (List.replicate n ("", .nul)) []) ∧ ∀ q ∈ K, q.1 ≠ v :=
  (runs_alloc hs kind (.replicate _ n)).imp fun _ _ q => ⟨q.1, q.2.1, q.2.2.2⟩

theorem runs_eval (hs : St h S P D K) {call : RVal} {f : String} {ts : List (String × RTm)}
    {n : String} (hc : (call, RTm.node .lang ((n, .perm f) :: ts) []) ∈ K)
    (hf : f ≠ "getNamespace") :
    Runs (eval call) h fun v h' => St h' S P D K ∧ Top h'.objs v (.call f ts) := by
  unfold eval
  refine Runs.bind ((runs_access (hs.facts _ hc)).imp ?_)
  rintro - h' ⟨rfl, -⟩
  refine Runs.bind ((runs_gc hs []).imp ?_)
  rintro - h1 ⟨s1, -⟩
  refine Runs.bind ((runs_access (s1.facts _ hc)).imp ?_)
  rintro o h' ⟨rfl, hk, h2, -⟩
  rcases ho : o.slots with - | ⟨⟨n', v⟩, args⟩
  · rw [ho] at h2; cases h2
  rw [ho] at h2
  cases h2 with
  | cons h3 h4 =>
    cases h3
    simp only [hk]
    refine Runs.bind ((runs_usableAll h4).imp ?_)
    rintro - h' rfl
    rw [if_neg hf]
    exact (runs_alloc s1 (.res f) h4).imp fun _ _ q => ⟨q.1, q.2.1⟩

theorem runs_eval_namespace (hs : St h S P D K) {call : RVal} {ts : List (String × RTm)}
    {n : String} (hc : (call, RTm.node .lang ((n, .perm "getNamespace") :: ts) []) ∈ K) :
    Runs (eval call) h fun v h' => St h' S P D K ∧ v = .perm "namespace" := by
  unfold eval
  refine Runs.bind ((runs_access (hs.facts _ hc)).imp ?_)
  rintro - h' ⟨rfl, -⟩
  refine Runs.bind ((runs_gc hs []).imp ?_)
  rintro - h1 ⟨s1, -⟩
  refine Runs.bind ((runs_access (s1.facts _ hc)).imp ?_)
  rintro o h' ⟨rfl, hk, h2, -⟩
  rcases ho : o.slots with - | ⟨⟨n', v⟩, args⟩
  · rw [ho] at h2; cases h2
  rw [ho] at h2
  cases h2 with
  | cons h3 h4 =>
    cases h3
    simp only [hk]
    refine Runs.bind ((runs_usableAll h4).imp ?_)
    rintro - h' rfl
    rw [if_pos trivial]
    exact .bind ((runs_gc s1 _).imp fun _ _ q => .pure ⟨q.1, rfl⟩)

theorem runs_finish_done {x : RVal} {k : RKind} {ts as : List (String × RTm)}
    (hs : St h S P D K) (hx : (x, RTm.node k ts as) ∈ K) (hk : k.frozen = true) :
    Runs (finish x) h fun _ h' => St h' S P D K := by
  unfold finish
  refine Runs.bind ((runs_access (hs.facts _ hx)).imp ?_)
  rintro o h' ⟨rfl, rfl, h2, h3, r, e, h4⟩
  simp only at e
  subst e
  have hv : o.kind ≠ .vec := by
    intro e
    rw [e] at hk
    cases hk
  have e2 : (fun x => if x = r then some { o with kind := if o.kind = .vec then .list else o.kind }
      else h'.objs x) = h'.objs := by
    funext x
    by_cases hx : x = r
    · subst hx
      rw [if_pos rfl, h4, if_neg hv]
    · rw [if_neg hx]
  refine ⟨(), _, rfl, ?_⟩
  rw [e2]
  exact hs

theorem runs_finish_vec {x : RVal} {ts as : List (String × RTm)}
    (hs : St h S P D ((x, .node .vec ts as) :: K)) (hne : ∀ q ∈ K, q.1 ≠ x) :
    Runs (finish x) h fun _ h' => St h' S P D ((x, .node .list ts as) :: K) := by
  unfold finish
  refine Runs.bind ((runs_access (hs.facts _ List.mem_cons_self)).imp ?_)
  rintro o h' ⟨rfl, hk, h2, h3, r, e, h4⟩
  simp only at e
  subst e
  have ho : o.kind.frozen = false := by rw [hk]; rfl
  refine (put_state hs h4 ho (K' := K)
    (fun q hq => ⟨List.mem_cons_of_mem _ hq, hne q hq⟩)).imp ?_
  rintro - h1 ⟨s1, e1⟩
  refine ⟨s1.fresh, s1.stack, s1.precious, s1.devs, ?_, ?_⟩
  · intro q hq
    rcases List.mem_cons.1 hq with rfl | hq
    · rw [e1]
      exact .ref (o := { o with kind := .list }) (by simp [hk]) (h2.mono (mono_put h4 ho)) (h3.mono (mono_put h4 ho))
    · exact s1.facts q hq
  · intro q hq
    rcases List.mem_cons.1 hq with rfl | hq
    · exact hs.rooted (.ref r, .node .vec ts as) List.mem_cons_self
    · exact s1.rooted q hq

theorem runs_setAttrib {v : RVal} {k : RKind} {ts as : List (String × RTm)}
    {K' : List (RVal × RTm)} (hs : St h S P D ((v, .node k ts as) :: K))
    {x : RVal} {t : RTm} {name : String}
    (hfin : ∀ {h : RHeap}, St h S P D ((v, .node k ts as) :: K) →
      Runs (finish x) h fun _ h' => St h' S P D ((v, .node k ts as) :: K'))
    (hne : ∀ q ∈ K', q.1 ≠ v) (hk : k.frozen = false) (hx : (x, t) ∈ K') (ht : t.done = true) :
    Runs (setAttrib v name x) h fun _ h' =>
      St h' S P D ((v, .node k ts (as ++ [(name, t)])) :: K') := by
  unfold setAttrib
  refine Runs.bind ((runs_gc hs [v, x]).imp ?_)
  rintro - h1 ⟨s1, -⟩
  refine Runs.bind ((hfin s1).imp ?_)
  rintro - h2 s2
  refine Runs.bind ((runs_access (s2.facts _ List.mem_cons_self)).imp ?_)
  rintro o h' ⟨rfl, rfl, h3, h4, r, e, h5⟩
  simp only at e
  subst e
  rw [if_neg (by simp [hk])]
  have hxs := (s2.facts _ (List.mem_cons_of_mem _ hx)).shows ht
  refine (put_state s2 h5 hk (K' := K')
    (fun q hq => ⟨List.mem_cons_of_mem _ hq, hne q hq⟩)).imp ?_
  rintro - h6 ⟨s6, e6⟩
  refine ⟨s6.fresh, s6.stack, s6.precious, s6.devs, ?_, ?_⟩
  · intro q hq
    rcases List.mem_cons.1 hq with rfl | hq
    · rw [e6]
      have : o.kind = ({ o with attrs := o.attrs ++ [(name, x)] } : RObj).kind := rfl
      rw [this]
      exact .ref (by simp) (h3.mono (mono_put h5 hk))
        ((h4.mono (mono_put h5 hk)).append (.cons (hxs.mono (mono_put h5 hk)) .nil))
    · exact s6.facts q hq
  · intro q hq
    rcases List.mem_cons.1 hq with rfl | hq
    · exact s2.rooted (.ref r, .node o.kind ts as) List.mem_cons_self
    · exact s6.rooted q hq

end Sinab
