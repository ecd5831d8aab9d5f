import Verif.Model.Markdown
import Verif.Props.Memory
import Verif.Props.Render

/-! # C69 `md_to_html()` converts the elements of a vector one by one -/

namespace Sinab

open RM

/-- an element of a character vector -/
def RTm.chr (utf8 : List UInt8) : RTm := .node (.chr utf8) [] []

/-- a character vector -/
def RTm.strs (xs : List (List UInt8)) : RTm := .node .strs (xs.map fun b => ("", .chr b)) []

/-- the HTML for one Markdown string given in UTF-8 (for a string that is not UTF-8: empty) -/
def htmlOf (X : Externals) (utf8 : List UInt8) : Except Panic Text :=
  match String.fromUTF8? ⟨utf8.toArray⟩ with
  | some s => X.markdown s.toList
  | none => .ok []

/-- text in UTF-8 -/
def utf8Of (t : Text) : List UInt8 := (String.ofList t).toUTF8.toList

/-- the program ends without failure, in a state with the property `Q` -/
def MRuns {α : Type} (m : MM α) (c : CStrs) (h : RHeap) (Q : α → CStrs → RHeap → Prop) : Prop :=
  ∃ a c' h', m c h = .ok ((a, c'), h') ∧ Q a c' h'

theorem MRuns.bind {α β : Type} {m : MM α} {f : α → MM β} {c : CStrs} {h : RHeap}
    {Q : β → CStrs → RHeap → Prop}
    (hm : MRuns m c h fun a c' h' => MRuns (f a) c' h' Q) : MRuns (m >>= f) c h Q := by
  obtain ⟨a, c', h', e, b, c'', h'', e', q⟩ := hm
  refine ⟨b, c'', h'', ?_, q⟩
  simp only [Bind.bind, StateT.bind, e, Except.bind]
  exact e'

theorem MRuns.pure {α : Type} {a : α} {c : CStrs} {h : RHeap} {Q : α → CStrs → RHeap → Prop}
    (q : Q a c h) : MRuns (Pure.pure a) c h Q := ⟨a, c, h, rfl, q⟩

theorem MRuns.imp {α : Type} {m : MM α} {c : CStrs} {h : RHeap} {Q Q' : α → CStrs → RHeap → Prop}
    (hm : MRuns m c h Q) (hq : ∀ a c' h', Q a c' h' → Q' a c' h') : MRuns m c h Q' := by
  obtain ⟨a, c', h', e, q⟩ := hm
  exact ⟨a, c', h', e, hq _ _ _ q⟩

/-- a step that concerns R's memory only -/
theorem MRuns.step {α β : Type} {m : RM α} {f : α → MM β} {c : CStrs} {h : RHeap}
    {P : α → RHeap → Prop} {Q : β → CStrs → RHeap → Prop} (hm : Runs m h P)
    (hf : ∀ a h', P a h' → MRuns (f a) c h' Q) : MRuns (liftM m >>= f) c h Q := by
  obtain ⟨a, h', e, q⟩ := hm
  obtain ⟨b, c'', h'', e', q'⟩ := hf a h' q
  refine ⟨b, c'', h'', ?_, q'⟩
  simp only [Bind.bind, StateT.bind, liftM, monadLift, MonadLift.monadLift, StateT.lift, e,
    Except.bind, Pure.pure, StateT.pure, Except.pure]
  exact e'

theorem MRuns.last {α : Type} {m : RM α} {c : CStrs} {h : RHeap}
    {P : α → RHeap → Prop} {Q : α → CStrs → RHeap → Prop} (hm : Runs m h P)
    (hf : ∀ a h', P a h' → Q a c h') : MRuns (liftM m) c h Q := by
  obtain ⟨a, h', e, q⟩ := hm
  refine ⟨a, c, h', ?_, hf a h' q⟩
  simp only [Bind.bind, StateT.bind, liftM, monadLift, MonadLift.monadLift, StateT.lift, e,
    Except.bind, Pure.pure, StateT.pure, Except.pure]

theorem MRuns.rust {α : Type} {a : α} {x : Except Panic α} (hx : x = .ok a) {c : CStrs} {h : RHeap}
    {Q : α → CStrs → RHeap → Prop} (q : Q a c h) : MRuns (Sinab.rust x) c h Q := by
  subst hx
  exact ⟨a, c, h, rfl, q⟩

variable {h : RHeap} {S P : List RVal} {D : Nat → Option CDev} {K : List (RVal × RTm)}

open Classical in
/-- elements of protected objects survive a garbage collection -/
theorem runs_gc_elt (hs : St h S P D K) {r : Nat} {o : RObj} {n : String} {v : RVal} {t : RTm}
    (hr : RVal.ref r ∈ S ++ P) (ho : h.objs r = some o) (hv : (n, v) ∈ o.slots)
    (ht : Denotes h.objs v t) :
    Runs (gc []) h fun _ h' => St h' S P D K ∧ Denotes h'.objs v t := by
  obtain ⟨a, h', e, s', -⟩ := runs_gc hs []
  refine ⟨a, h', e, s', ?_⟩
  have e' : h' = { h with
      clock := h.clock + 1
      objs := fun r =>
        if h.adv h.clock r = true ∧ ¬ Reach h.objs (h.stack ++ h.precious ++ []) r then none
        else h.objs r } := by
    have := e
    simp only [gc, Except.ok.injEq, Prod.mk.injEq] at this
    exact this.2.symm
  subst e'
  refine Denotes.keep (roots := h.stack ++ h.precious ++ []) ?_ ?_ ht
  · intro q hq
    exact if_neg (by tauto)
  · rintro q rfl
    refine .step (.root ?_) ho (List.mem_append_left _ hv)
    rw [hs.stack, hs.precious, List.append_nil]
    exact hr

theorem runs_translateChar (hs : St h S P D K) {r : Nat} {o : RObj} {n : String} {v : RVal}
    {b : List UInt8} (hr : RVal.ref r ∈ S ++ P) (ho : h.objs r = some o) (hv : (n, v) ∈ o.slots)
    (ht : Denotes h.objs v (.chr b)) :
    Runs (translateChar v) h fun x h' => St h' S P D K ∧ x = b := by
  unfold translateChar
  refine .bind ((runs_access ht.top).imp ?_)
  rintro - h' ⟨rfl, -⟩
  refine .bind ((runs_gc_elt hs hr ho hv ht).imp ?_)
  rintro - h1 ⟨s1, t1⟩
  refine .bind ((runs_access t1.top).imp ?_)
  rintro o h' ⟨rfl, hk, -⟩
  simp only [hk]
  exact .pure ⟨s1, rfl⟩

theorem runs_element (hs : St h S P D K) {str : RVal} {b : List UInt8} {n : String} {i : Nat}
    {ts as : List (String × RTm)} (hk : (str, RTm.node .strs ts as) ∈ K)
    (hi : ts[i]? = some (n, .chr b)) :
    Runs (getElt str i) h fun v h' => h' = h ∧
      Runs (translateChar v) h' fun x h'' => St h'' S P D K ∧ x = b := by
  unfold getElt
  refine Runs.bind ((runs_access (hs.facts _ hk)).imp ?_)
  rintro o h' ⟨rfl, -, h2, -, r, e, h4⟩
  obtain ⟨w, hw, hx⟩ := h2.get i hi
  simp only [hw]
  have e : str = .ref r := e
  subst e
  exact .pure ⟨rfl, runs_translateChar hs (hs.rooted _ hk) h4 (List.mem_of_getElem? hw) hx⟩

/-- nothing is stored at addresses that have not been handed out yet -/
def CStrs.Fresh (c : CStrs) : Prop := ∀ p, c.next ≤ p → c.strs p = none

/-- the same strings are stored -/
def CStrs.Same (c c' : CStrs) : Prop := c'.strs = c.strs ∧ c'.Fresh

theorem sinabMdToHtml_ok {X : Externals} {b : List UInt8} {t : Text} (ht : htmlOf X b = .ok t)
    (hn : '\x00' ∉ t) (c : CStrs) (h : RHeap) :
    MRuns (sinabMdToHtml X b) c h fun s c' h' => h' = h ∧ s = some c.next ∧
      c' = ⟨fun p => if p = c.next then some (utf8Of t) else c.strs p, c.next + 1⟩ := by
  unfold sinabMdToHtml
  refine .bind (.rust rfl ?_)
  refine .bind (.rust (a := t) ?_ ?_)
  · unfold htmlOf at ht
    rw [← ht]
    cases String.fromUTF8? ⟨b.toArray⟩ <;> rfl
  · have : t.contains '\x00' = false := by simpa using hn
    exact ⟨some c.next, _, h, by simp only [strToCstring, this]; rfl, rfl, rfl, rfl⟩

theorem runs_mkCharCE (hs : St h S P D K) {c : CStrs} {p : Nat} {b : List UInt8}
    (hp : c.strs p = some b) : MRuns (mkCharCE (some p)) c h fun v c' h' =>
      c' = c ∧ St h' S P D K ∧ Top h'.objs v (.chr b) := by
  unfold mkCharCE
  refine .bind ⟨b, c, h, ?_, ?_⟩
  · simp only [readCstring, hp]
    rfl
  · exact MRuns.last (runs_alloc hs (.chr b) .nil) fun v h' q => ⟨rfl, q.1, q.2.1⟩

theorem runs_mdLoop (X : Externals) {str out : RVal} {xs : List (List UInt8)}
    {as : List (String × RTm)} {c₀ : CStrs}
    (hk : (str, RTm.node .strs (xs.map fun b => ("", .chr b)) as) ∈ K)
    (hne : ∀ q ∈ K, q.1 ≠ out) (n : Nat) : ∀ (i : Nat) (pre : List (List UInt8)) (post : List Text)
    (h : RHeap) (c : CStrs), i + n = xs.length → pre.length = i →
    List.Forall₂ (fun b t => htmlOf X b = .ok t ∧ '\x00' ∉ t) (xs.drop i) post →
    c₀.Same c →
    St h S P D ((out, .node .strs ((pre.map fun b => ("", RTm.chr b)) ++ List.replicate n ("", .nul)) []) :: K) →
    MRuns (mdLoop X str out i n) c h fun _ c' h' => c₀.Same c' ∧
      St h' S P D ((out, .strs (pre ++ post.map utf8Of)) :: K) := by
  induction n with
  | zero =>
    intro i pre post h c hi hp hx hc hs
    rw [List.drop_of_length_le (by omega)] at hx
    cases hx
    refine .pure ⟨hc, ?_⟩
    simpa [RTm.strs] using hs
  | succ n ih =>
    intro i pre post h c hi hp hx hc hs
    have hlt : i < xs.length := by omega
    rw [List.drop_eq_getElem_cons hlt] at hx
    cases hx with
    | @cons _ t _ post h1 h2 =>
    unfold mdLoop
    refine MRuns.step (runs_element hs (List.mem_cons_of_mem _ hk) (i := i) (n := "") (b := xs[i])
      (by simp [hlt])) ?_
    rintro v h' ⟨rfl, hv⟩
    refine MRuns.step hv ?_
    rintro x h1' ⟨s1, rfl⟩
    refine .bind ((sinabMdToHtml_ok h1.1 h1.2 c h1').imp ?_)
    rintro s c1 h' ⟨rfl, rfl, rfl⟩
    refine .bind ((runs_mkCharCE s1 (b := utf8Of t) (by simp)).imp ?_)
    rintro rs c' h2' ⟨rfl, s2, t2⟩
    refine MRuns.step (runs_protect s2 t2) ?_
    rintro - h3 s3
    refine .bind (Q := _) ⟨(), ⟨c.strs, c.next + 1⟩, h3, ?_, ?_⟩
    · have e : (fun q => if q = c.next then none else if q = c.next then some (utf8Of t) else c.strs q) =
          c.strs := by
        funext q
        by_cases hq : q = c.next
        · subst hq
          simp [hc.2 _ (Nat.le_refl _)]
        · simp [hq]
      simp only [freeCstring, if_true, e]
      rfl
    have hro : rs ≠ out := (s3.facts _ List.mem_cons_self).ne
      (s3.facts _ (List.mem_cons_of_mem _ List.mem_cons_self)) (by simp)
    have s3' := s3.sub (K' := (out, _) :: (rs, RTm.chr (utf8Of t)) :: K)
      (fun q hq => by simp only [List.mem_cons] at hq ⊢; tauto)
    refine MRuns.step (runs_setElt s3' (by
        intro q hq
        rcases List.mem_cons.1 hq with rfl | hq
        · exact hro
        · exact hne q hq) rfl (i := i) (n := "") (t₀ := .nul) (t := .chr (utf8Of t))
        (by rw [List.getElem?_append_right (by simp [hp])]; simp [hp])
        ((s3'.facts (rs, .chr (utf8Of t)) (by simp)).shows rfl)) ?_
    rintro - h4 s4
    refine MRuns.step (runs_unprotect s4 1 (S' := S)
      (K' := (out, .node .strs (((pre ++ [utf8Of t]).map fun b => ("", RTm.chr b)) ++
        List.replicate n ("", .nul)) []) :: K) (by simp) rfl ?_) ?_
    · intro q hq
      have e : ((pre.map fun b => ("", RTm.chr b)) ++ List.replicate (n + 1) ("", RTm.nul)).set i
          ("", .chr (utf8Of t)) = ((pre ++ [utf8Of t]).map fun b => ("", RTm.chr b)) ++
            List.replicate n ("", RTm.nul) := by
        rw [List.set_append_right _ _ (by simp [hp])]
        simp [hp, List.replicate_succ]
      rcases List.mem_cons.1 hq with rfl | hq
      · refine ⟨?_, hs.rooted (out, .node .strs ((pre.map fun b => ("", RTm.chr b)) ++
          List.replicate (n + 1) ("", .nul)) []) List.mem_cons_self⟩
        rw [e]
        exact List.mem_cons_self
      · exact ⟨by simp [hq], hs.rooted q (List.mem_cons_of_mem _ hq)⟩
    rintro - h5 ⟨s5, -⟩
    refine (ih (i + 1) (pre ++ [utf8Of t]) post h5 _ (by omega) (by simp [hp]) h2 ?_ s5).imp ?_
    · exact ⟨hc.1, fun p hp => hc.2 p (Nat.le_of_succ_le hp)⟩
    · rintro - c' h6 ⟨q1, q2⟩
      exact ⟨q1, by simpa using q2⟩

/-- `md_to_html(x)` for a character vector `x`, if the converter gives HTML without NUL
characters for every element: the result has the same length, its `i`-th element is the HTML of
the `i`-th element alone, whenever and whatever R collects as garbage; nothing is left on the
protection stack, all strings handed over by Rust have been given back exactly once, and
everything that was in use before is unchanged. -/
theorem C69_md_to_html (X : Externals) (h : RHeap) (hf : h.Fresh) (c : CStrs) (hc : c.Fresh)
    {str : RVal} {xs : List (List UInt8)} {as : List (String × RTm)}
    (hx : Top h.objs str (.node .strs (xs.map fun b => ("", .chr b)) as))
    (hr : str ∈ h.stack ++ h.precious) {htmls : List Text}
    (hh : List.Forall₂ (fun b t => htmlOf X b = .ok t ∧ '\x00' ∉ t) xs htmls) :
    ∃ v c' h', mdToHtml X str c h = .ok ((v, c'), h') ∧ Top h'.objs v (.strs (htmls.map utf8Of)) ∧
      c'.strs = c.strs ∧ h'.stack = h.stack ∧ h'.precious = h.precious ∧ h'.devs = h.devs ∧
      ∀ w t, w ∈ h.stack ++ h.precious → Top h.objs w t → Top h'.objs w t := by
  have main : ∀ K : List (RVal × RTm), (∀ q ∈ K, Top h.objs q.1 q.2 ∧ q.1 ∈ h.stack ++ h.precious) →
      MRuns (mdToHtml X str) c h fun v c' h' => c'.strs = c.strs ∧
        St h' h.stack h.precious h.devs K ∧ Top h'.objs v (.strs (htmls.map utf8Of)) := by
    intro K hK
    have hs : St h h.stack h.precious h.devs
        ((str, .node .strs (xs.map fun b => ("", .chr b)) as) :: K) := by
      refine ⟨hf, rfl, rfl, rfl, fun q hq => ?_, fun q hq => ?_⟩
      · rcases List.mem_cons.1 hq with rfl | hq
        exacts [hx, (hK q hq).1]
      · rcases List.mem_cons.1 hq with rfl | hq
        exacts [hr, (hK q hq).2]
    unfold mdToHtml
    refine MRuns.step (runs_access hx) ?_
    rintro o h' ⟨rfl, -, h2, -⟩
    have hl : o.slots.length = xs.length := by simpa using h2.length
    rw [hl]
    refine MRuns.step (runs_allocVec hs .strs xs.length) ?_
    rintro out h1 ⟨s1, t1, ne1⟩
    refine MRuns.step (runs_protect s1 t1) ?_
    rintro - h2 s2
    refine .bind ((runs_mdLoop X (c₀ := c) List.mem_cons_self ne1 xs.length 0 [] htmls h2 c
      (by simp) rfl (by simpa using hh) ⟨rfl, hc⟩ (by simpa using s2)).imp ?_)
    rintro - c' h3 ⟨q3, s3⟩
    have t3 := s3.facts _ List.mem_cons_self
    refine MRuns.step (runs_unprotect s3 1 (S' := h'.stack) (K' := K) (by simp) rfl
      (fun q hq => ⟨by simp [hq], (hK q hq).2⟩)) ?_
    rintro - h4 ⟨s4, e4⟩
    refine .pure ⟨q3.1, s4, ?_⟩
    rw [e4]
    simpa using t3
  obtain ⟨v, c', h', e, e1, s', t'⟩ := main [] (by simp)
  refine ⟨v, c', h', e, t', e1, s'.stack, s'.precious, s'.devs, fun w t hw ht => ?_⟩
  obtain ⟨v2, c2, h2, e2, -, s2, -⟩ := main [(w, t)] (by rintro q hq; rw [List.mem_singleton.1 hq]; exact ⟨ht, hw⟩)
  rw [e] at e2
  cases e2
  exact s2.facts _ List.mem_cons_self

/-- What the hypothesis is for: HTML with a NUL character cannot be handed over as a C string;
a null pointer is handed over instead, and the process crashes in C code. -/
theorem C69_nul_crashes (X : Externals) (h : RHeap) (hf : h.Fresh) (c : CStrs)
    {str : RVal} {b : List UInt8} {xs : List (List UInt8)} {as : List (String × RTm)}
    (hx : Top h.objs str (.node .strs ((b :: xs).map fun b => ("", .chr b)) as))
    (hr : str ∈ h.stack ++ h.precious) {t : Text} (ht : htmlOf X b = .ok t) (hn : '\x00' ∈ t) :
    mdToHtml X str c h = .error .abort := by
  have hs : St h h.stack h.precious h.devs
      [(str, .node .strs ((b :: xs).map fun b => ("", .chr b)) as)] :=
    ⟨hf, rfl, rfl, rfl, fun q hq => by rw [List.mem_singleton.1 hq]; exact hx,
      fun q hq => by rw [List.mem_singleton.1 hq]; exact hr⟩
  have step : ∀ {α β : Type} {m : RM α} {f : α → MM β} {h : RHeap} {P : α → RHeap → Prop},
      Runs m h P → (∀ a h', P a h' → f a c h' = .error .abort) →
      (liftM m >>= f : MM β) c h = .error .abort := by
    rintro α β m f h P ⟨a, h', e, q⟩ hf
    have := hf a h' q
    simp only [Bind.bind, StateT.bind, liftM, monadLift, MonadLift.monadLift, StateT.lift, e,
      Except.bind, Pure.pure, StateT.pure, Except.pure]
    exact this
  have stop : ∀ {α β : Type} {m : MM α} {f : α → MM β} {h : RHeap},
      m c h = .error .abort → (m >>= f) c h = .error .abort := by
    intro α β m f h e
    simp only [Bind.bind, StateT.bind, e, Except.bind]
  unfold mdToHtml
  refine step (runs_access hx) ?_
  rintro o h' ⟨rfl, -, h2, -⟩
  have hl : o.slots.length = xs.length + 1 := by simpa using h2.length
  rw [hl]
  refine step (runs_allocVec hs .strs (xs.length + 1)) ?_
  rintro out h1 ⟨s1, t1, ne1⟩
  refine step (runs_protect s1 t1) ?_
  rintro - h2 s2
  refine stop ?_
  unfold mdLoop
  refine step (runs_element s2 (List.mem_cons_of_mem _ List.mem_cons_self) (i := 0) (n := "")
    (b := b) rfl) ?_
  rintro v h' ⟨rfl, hv⟩
  refine step hv ?_
  rintro x h3 ⟨s3, rfl⟩
  have e : sinabMdToHtml X x c h3 = .ok ((none, c), h3) := by
    have e3 : t.contains '\x00' = true := by simpa using hn
    unfold htmlOf at ht
    unfold sinabMdToHtml cstringToStr
    cases hu : String.fromUTF8? ⟨x.toArray⟩ with
    | none =>
      rw [hu] at ht
      cases ht
      cases hn
    | some s =>
      rw [hu] at ht
      have ht : X.markdown s.toList = .ok t := ht
      simp only [hu, Option.map_some, Bind.bind, StateT.bind, Except.bind, rust, strToCstring, ht,
        e3]
      rfl
  simp only [Bind.bind, StateT.bind, e, Except.bind, mkCharCE, readCstring, fail]

/-- the same externals with another converter -/
def withMarkdown (f : Text → Text) : Externals :=
  { opsExternals [] with markdown := fun t => .ok (f t) }

/-- a character vector with two elements, the second not valid UTF-8, protected by R, in a
memory in which R collects garbage at every opportunity -/
def twoStrings : RHeap where
  objs := fun r => if r = 0 then some ⟨.chr [0x61], [], []⟩ else if r = 1 then some ⟨.chr [0xff], [], []⟩
    else if r = 2 then some ⟨.strs, [("", .ref 0), ("", .ref 1)], []⟩ else none
  next := 3
  stack := [.ref 2]
  precious := []
  devs := fun _ => none
  nextDev := 0
  clock := 0
  adv := fun _ _ => true

theorem twoStrings_fresh : twoStrings.Fresh := by
  refine ⟨fun r hr => ?_, fun _ _ => rfl⟩
  have hr : 3 ≤ r := hr
  have h0 : r ≠ 0 := by omega
  have h1 : r ≠ 1 := by omega
  have h2 : r ≠ 2 := by omega
  simp [twoStrings, h0, h1, h2]

theorem twoStrings_top : Top twoStrings.objs (.ref 2)
    (.node .strs ([[0x61], [0xff]].map fun b => ("", .chr b)) []) := by
  refine Top.ref (o := ⟨.strs, [("", .ref 0), ("", .ref 1)], []⟩) rfl
    (.cons (.ref (o := ⟨.chr [0x61], [], []⟩) rfl rfl .nil .nil)
      (.cons (.ref (o := ⟨.chr [0xff], [], []⟩) rfl rfl .nil .nil) .nil)) .nil

example : ∃ v c' h', mdToHtml (withMarkdown fun t => '<' :: t ++ ['é']) (.ref 2) ⟨fun _ => none, 0⟩
      twoStrings = .ok ((v, c'), h') ∧ Top h'.objs v (.strs [[0x3c, 0x61, 0xc3, 0xa9], []]) ∧
      c'.strs = fun _ => none := by
  obtain ⟨v, c', h', e, t, q, -⟩ := C69_md_to_html (withMarkdown fun t => '<' :: t ++ ['é'])
    twoStrings twoStrings_fresh ⟨fun _ => none, 0⟩ (fun _ _ => rfl) twoStrings_top
    (by simp [twoStrings]) (htmls := [['<', 'a', 'é'], []])
    (.cons ⟨by decide +kernel, by decide +kernel⟩ (.cons ⟨by decide +kernel, by decide +kernel⟩ .nil))
  have u : [['<', 'a', 'é'], []].map utf8Of = [[0x3c, 0x61, 0xc3, 0xa9], []] := by decide +kernel
  exact ⟨v, c', h', e, u ▸ t, q⟩

example : mdToHtml (withMarkdown fun _ => ['\x00']) (.ref 2) ⟨fun _ => none, 0⟩ twoStrings =
    .error .abort :=
  C69_nul_crashes _ _ twoStrings_fresh _ twoStrings_top (by simp [twoStrings]) (t := ['\x00'])
    (by decide +kernel) (by simp)

end Sinab
