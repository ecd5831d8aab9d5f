import Verif.Model.RenderCall
import Verif.Props.Markdown

/-! # C82 `render_markdown()` called with arguments of any type -/

namespace Sinab

open RM

/-! ### What the arguments are -/

/-- the numbers of a vector of type double -/
def RTm.doubles : RTm → Option (List ℚ)
  | .node (.real xs) _ _ => some xs
  | _ => none

/-- a character vector with these elements (in UTF-8) -/
inductive RTm.Strings : RTm → List (List UInt8) → Prop
  | one (s : String) (ts as) : RTm.Strings (.node (.str s) ts as) [s.toUTF8.toList]
  | many (xs : List (List UInt8)) (as) : RTm.Strings (.node .strs (xs.map fun b => ("", .chr b)) as) xs

/-- the type is not character -/
def RTm.notStrings : RTm → Bool
  | .node (.str _) _ _ | .node .strs _ _ => false
  | _ => true

/-- the number of elements -/
def RTm.count : RTm → Nat
  | .nul => 0
  | .perm _ => 1
  | .node (.real xs) _ _ => xs.length
  | .node .strs ts _ | .node .vec ts _ | .node .list ts _ | .node .lang ts _ => ts.length
  | .node _ _ _ => 1

variable {h : RHeap} {S P : List RVal} {D : Nat → Option CDev} {K : List (RVal × RTm)}

theorem runs_look {v : RVal} {t : RTm} (ht : Top h.objs v t) :
    Runs (look v) h fun o h' => h' = h ∧
      match t with
      | .node k ts as => ∃ o', o = some o' ∧ o'.kind = k ∧ o'.slots.length = ts.length
      | _ => o = none := by
  cases ht with
  | nul => exact .pure ⟨rfl, rfl⟩
  | perm s => exact .pure ⟨rfl, rfl⟩
  | @ref r o ts as h1 h2 h3 =>
    unfold look
    refine .bind ((runs_access (.ref h1 h2 h3)).imp ?_)
    rintro o' h' ⟨rfl, e1, e2, -⟩
    exact .pure ⟨rfl, o', rfl, e1, e2.length⟩

theorem runs_realData {v : RVal} {t : RTm} (ht : Top h.objs v t) :
    Runs (realData v) h fun r h' => h' = h ∧ r = t.doubles := by
  unfold realData
  refine .bind ((runs_look ht).imp ?_)
  rintro o h' ⟨rfl, ho⟩
  cases t with
  | nul => subst ho; exact .pure ⟨rfl, rfl⟩
  | perm s => subst ho; exact .pure ⟨rfl, rfl⟩
  | node k ts as =>
    obtain ⟨⟨k', sl, at'⟩, rfl, rfl, -⟩ := ho
    cases k' <;> exact .pure ⟨rfl, rfl⟩

theorem runs_xlength {v : RVal} {t : RTm} (ht : Top h.objs v t) :
    Runs (xlength v) h fun r h' => h' = h ∧ r = t.count := by
  unfold xlength
  refine .bind ((runs_look ht).imp ?_)
  rintro o h' ⟨rfl, ho⟩
  cases ht with
  | nul => subst ho; exact .pure ⟨rfl, rfl⟩
  | perm s => subst ho; exact .pure ⟨rfl, rfl⟩
  | ref h1 h2 h3 =>
    obtain ⟨⟨k', sl, at'⟩, rfl, e, e2⟩ := ho
    rename_i o _ _
    obtain ⟨ko, so, ao⟩ := o
    simp only at e e2
    subst e
    cases k' <;> first | exact .pure ⟨rfl, rfl⟩ | exact .pure ⟨rfl, e2⟩

theorem runs_firstString (hs : St h S P D K) {v : RVal} {t : RTm} (hk : (v, t) ∈ K) {x : List UInt8} {xs : List (List UInt8)}
    (ht : t.Strings (x :: xs)) :
    Runs (firstString v) h fun r h' => St h' S P D K ∧ r = some x := by
  generalize hl : x :: xs = l at ht
  unfold firstString
  refine .bind ((runs_look (hs.facts _ hk)).imp ?_)
  rintro o h' ⟨rfl, ho⟩
  cases ht with
  | one s ts as =>
    obtain ⟨⟨k', sl, at'⟩, rfl, e, -⟩ := ho
    subst e
    refine .bind ((runs_gc hs []).imp ?_)
    rintro - h1 ⟨s1, -⟩
    refine .bind ((runs_access (s1.facts _ hk)).imp ?_)
    rintro - h' ⟨rfl, -⟩
    injection hl with e1
    exact .pure ⟨s1, by rw [e1]⟩
  | many ys as =>
    subst hl
    obtain ⟨⟨k', sl, at'⟩, rfl, e, -⟩ := ho
    subst e
    refine .bind ((runs_element hs hk (i := 0) (n := "") (b := x) rfl).imp ?_)
    rintro v h' ⟨rfl, hv⟩
    refine .bind (hv.imp ?_)
    rintro y h1 ⟨s1, rfl⟩
    exact .pure ⟨s1, rfl⟩

theorem runs_firstString_none {v : RVal} {t : RTm} (ht : Top h.objs v t) (hn : t.notStrings = true) :
    Runs (firstString v) h fun r h' => h' = h ∧ r = none := by
  unfold firstString
  refine .bind ((runs_look ht).imp ?_)
  rintro o h' ⟨rfl, ho⟩
  cases t with
  | nul => subst ho; exact .pure ⟨rfl, rfl⟩
  | perm s => subst ho; exact .pure ⟨rfl, rfl⟩
  | node k ts as =>
    obtain ⟨⟨k', sl, at'⟩, rfl, rfl, -⟩ := ho
    cases k' <;> first | exact .pure ⟨rfl, rfl⟩ | cases hn

/-! ### Drawing -/

variable {p : Nat} {d : CDev} {ts : List RTm}

/-- a step that does not touch the device -/
theorem DevSt.step {α : Type} {m : RM α} {Q : α → Prop} (hd : DevSt h S P D p K d ts)
    (hm : ∀ {P' D' K'}, St h S P' D' K' → (∀ q ∈ K, q ∈ K') → Runs m h fun a h' => St h' S P' D' K' ∧ Q a) :
    Runs m h fun a h' => DevSt h' S P D p K d ts ∧ Q a := by
  obtain ⟨l, hs, hl⟩ := hd.elems
  refine (hm hs fun q hq => List.mem_cons_of_mem _ hq).imp ?_
  rintro a h' ⟨s, q⟩
  exact ⟨⟨⟨l, s, hl⟩, hd.other, hd.size, hd.le, hd.pos⟩, q⟩

theorem exec_ccall (c : DrawCall) :
    (∃ k, c.ccall = .ok k ∧ ∀ d : RDev, d.exec c = k.on d) ∨ ∃ q, c.ccall = .error q ∧ ∀ d : RDev, d.exec c = .error q := by
  cases c with
  | text label x y font color =>
    by_cases hv : '\x00' ∈ label.toList
    · right
      have hc : cstring label = .error .interiorNul := if_pos (by simpa using hv)
      refine ⟨_, by simp only [DrawCall.ccall, hc, bind, Except.bind]; rfl, fun d => ?_⟩
      simp only [RDev.exec, hc, bind, Except.bind]
    · exact .inl (exec_on _ hv)
  | rect x y w h fill => exact .inl (exec_on _ trivial)
  | line pts color width style => exact .inl (exec_on _ trivial)
  | bbox x y w h => exact .inl (exec_on _ trivial)

theorem runs_performTrace (cs : List DrawCall) (e : Option Panic) : ∀ {h : RHeap} {d : CDev} {ts : List RTm} {r : RDev}
    {gs : List Grob}, DevSt h S P D p K d ts → SameDev d ts r gs →
    Runs (performTrace p cs e) h fun e' h' => ∃ d' ts' r' gs', r.perform cs e = (r', e') ∧
      DevSt h' S P D p K d' ts' ∧ SameDev d' ts' r' gs' := by
  induction cs with
  | nil => intro h d ts r gs hd hr; exact .pure ⟨d, ts, r, gs, rfl, hd, hr⟩
  | cons c cs ih =>
    intro h d ts r gs hd hr
    unfold performTrace
    rcases exec_ccall c with ⟨k, e1, e2⟩ | ⟨q, e1, e2⟩
    · rw [e1]
      refine Runs.bind ((runs_perform k hd hr).imp ?_)
      rintro - h1 ⟨d1, ts1, r1, gs1, f1, hd1, hr1⟩
      refine (ih hd1 hr1).imp ?_
      rintro e' h2 ⟨d2, ts2, r2, gs2, f2, hd2, hr2⟩
      refine ⟨d2, ts2, r2, gs2, ?_, hd2, hr2⟩
      rw [RDev.perform, e2, f1]
      exact f2
    · rw [e1]
      refine Runs.pure ⟨d, ts, r, gs, ?_, hd, hr⟩
      rw [RDev.perform, e2]

theorem fails_bind {α β : Type} {m : RM α} {f : α → RM β} {h : RHeap} {Q : α → RHeap → Prop} {e : Panic} (hm : Runs m h Q)
    (hf : ∀ a h', Q a h' → f a h' = .error e) : (m >>= f) h = .error e := by
  obtain ⟨a, h', e1, q⟩ := hm
  have := hf a h' q
  simp only [Bind.bind, StateT.bind, e1, Except.bind]
  exact this

theorem fails_first {α β : Type} {m : RM α} {f : α → RM β} {h : RHeap} {e : Panic} (hm : m h = .error e) :
    (m >>= f) h = .error e := by
  simp only [Bind.bind, StateT.bind, hm, Except.bind]

/-- the renderer on a device with memory does what it does on a device without -/
theorem runs_testRenderer (X : Externals) (fuel : Nat) (text css : ByteArray) (size : PVec2 Length) {r : RDev} {gs : List Grob}
    (hd : DevSt h S P D p K d ts) (hr : SameDev d ts r gs) :
    match X.testRenderer fuel r (some text) (some css) size with
    | .ok (r', _) => Runs (X.testRendererAt fuel p text css size) h fun _ h' => ∃ d' ts' gs',
        DevSt h' S P D p K d' ts' ∧ SameDev d' ts' r' gs'
    | .error e => X.testRendererAt fuel p text css size h = .error e := by
  have key : ∀ html css : Text,
      match (match r.perform (X.renderHtml fuel html css size).calls (X.renderHtml fuel html css size).panic with
        | (d, none) => (.ok (d, false) : Except Panic (RDev × Bool))
        | (d, some p) => if p.caught then .ok (d, true) else .error p) with
      | .ok (r', _) => Runs (do
          match ← performTrace p (X.renderHtml fuel html css size).calls (X.renderHtml fuel html css size).panic with
          | none => pure ()
          | some q => if q.caught then pure () else fail q) h fun _ h' => ∃ d' ts' gs',
          DevSt h' S P D p K d' ts' ∧ SameDev d' ts' r' gs'
      | .error e => (do
          match ← performTrace p (X.renderHtml fuel html css size).calls (X.renderHtml fuel html css size).panic with
          | none => pure ()
          | some q => if q.caught then pure () else fail q : RM Unit) h = .error e := by
    intro html css
    have hp := runs_performTrace (p := p) (X.renderHtml fuel html css size).calls (X.renderHtml fuel html css size).panic hd hr
    cases hx : r.perform (X.renderHtml fuel html css size).calls (X.renderHtml fuel html css size).panic with
    | mk r' e' =>
      rw [hx] at hp
      cases e' with
      | none =>
        refine Runs.bind (hp.imp ?_)
        rintro e h1 ⟨d1, ts1, r1, gs1, f, hd1, hr1⟩
        cases f
        exact .pure ⟨d1, ts1, gs1, hd1, hr1⟩
      | some q =>
        by_cases hq : q.caught = true
        · simp only [hq, if_true]
          refine Runs.bind (hp.imp ?_)
          rintro e h1 ⟨d1, ts1, r1, gs1, f, hd1, hr1⟩
          cases f
          simp only [hq, if_true]
          exact .pure ⟨d1, ts1, gs1, hd1, hr1⟩
        · simp only [hq]
          refine fails_bind hp ?_
          rintro e h1 ⟨d1, ts1, r1, gs1, f, hd1, hr1⟩
          cases f
          simp only [hq]
          rfl
  unfold Externals.testRenderer Externals.testRendererAt
  cases h1 : cstringToStr (some text) with
  | error e => cases h1
  | ok a =>
    cases h2 : cstringToStr (some css) with
    | error e => cases h2
    | ok b =>
      cases a with
      | none => exact key [] (b.getD [])
      | some s =>
        simp only [bind, Except.bind, pure, Except.pure]
        cases h3 : X.markdown s with
        | error e => rfl
        | ok html => exact key html (b.getD [])

/-! ### The call -/

/-- the arguments of the call with what they stand for, protected by R during `.Call` -/
structure CallArgs (h : RHeap) (text css width height : RVal) (tt tc tw th : RTm) : Prop where
  text : Top h.objs text tt ∧ text ∈ h.stack ++ h.precious
  css : Top h.objs css tc ∧ css ∈ h.stack ++ h.precious
  width : Top h.objs width tw ∧ width ∈ h.stack ++ h.precious
  height : Top h.objs height th ∧ height ∈ h.stack ++ h.precious

/-- the facts about the arguments -/
def argFacts (text css width height : RVal) (tt tc tw th : RTm) : List (RVal × RTm) :=
  [(text, tt), (css, tc), (width, tw), (height, th)]

variable {text css width height : RVal} {tt tc tw th : RTm}

theorem CallArgs.st (ha : CallArgs h text css width height tt tc tw th) (hf : h.Fresh)
    (hK : ∀ q ∈ K, Top h.objs q.1 q.2 ∧ q.1 ∈ h.stack ++ h.precious) :
    St h h.stack h.precious h.devs (argFacts text css width height tt tc tw th ++ K) := by
  have : ∀ q ∈ argFacts text css width height tt tc tw th ++ K, Top h.objs q.1 q.2 ∧ q.1 ∈ h.stack ++ h.precious := by
    intro q hq
    simp only [argFacts, List.cons_append, List.nil_append, List.mem_cons] at hq
    rcases hq with rfl | rfl | rfl | rfl | hq
    exacts [ha.text, ha.css, ha.width, ha.height, hK q hq]
  exact ⟨hf, rfl, rfl, rfl, fun q hq => (this q hq).1, fun q hq => (this q hq).2⟩

theorem DevSt.fact (hd : DevSt h S P D p K d ts) {q : RVal × RTm} (hq : q ∈ K) : Top h.objs q.1 q.2 := by
  obtain ⟨l, hs, -⟩ := hd.elems
  exact hs.facts q (List.mem_cons_of_mem _ hq)

theorem Strings.count {t : RTm} {xs : List (List UInt8)} (h : t.Strings xs) : t.count = xs.length := by
  cases h <;> simp [RTm.count]

/-- the first number, if there is one -/
def firstOf (xs : List ℚ) : ℚ := xs.headD 0

theorem runs_release {r : RDev} {gs : List Grob} (hp : D p = none) (hd : DevSt h S P D p K d ts) (hr : SameDev d ts r gs) :
    ∃ out, r.release = .ok out ∧ Runs (do return .value (← rdevRelease p)) h fun b h' => ∃ v, b = RBack.value v ∧
      St h' S P D K ∧ Top h'.objs v out.term := by
  refine ⟨_, RDev.release_spec hr.holds, .bind ((runs_rdevRelease hp hd).imp ?_)⟩
  rintro v h3 ⟨s3, t3⟩
  refine .pure ⟨v, rfl, s3, ?_⟩
  have : (Released.mk (gs.map some) (if r.bbSet then some r.bb else none)).term =
      .node .vec (ts.map fun t => ("", t)) (bboxAttr d ++ [("class", .str "gList")]) := by
    unfold Released.term bboxAttr
    rw [hr.bb, hr.bbSet, hr.terms]
    cases r.bbSet <;> simp [Function.comp_def]
  rw [this]
  exact t3

theorem ends_bind {α β : Type} {m : RM α} {f : α → RM β} {h : RHeap} {Q : α → RHeap → Prop}
    {R : Except Panic (β × RHeap) → Prop} (hm : Runs m h Q) (hf : ∀ a h', Q a h' → R (f a h')) : R ((m >>= f) h) := by
  obtain ⟨a, h', e1, q⟩ := hm
  have := hf a h' q
  simp only [Bind.bind, StateT.bind, e1, Except.bind]
  exact this

/-- the beginning of the call -/
theorem ends_call (X : Externals) (fuel : Nat) (hf : h.Fresh) (ha : CallArgs h text css width height tt tc tw th)
    (hK : ∀ q ∈ K, Top h.objs q.1 q.2 ∧ q.1 ∈ h.stack ++ h.precious) {R : Except Panic (RBack × RHeap) → Prop}
    (hR : ∀ p d h1, h.devs p = none →
      DevSt h1 h.stack h.precious h.devs p (argFacts text css width height tt tc tw th ++ K) d [] →
      SameDev d [] (RDev.new 0) [] → R ((match tw.doubles with
        | none => return .raised
        | some ws =>
          match th.doubles with
          | none => return .raised
          | some hs =>
            if tt.count ≥ 1 ∧ tc.count ≥ 1 then do
              match ← firstString text with
              | none => return .raised
              | some t =>
                match ← firstString css with
                | none => return .raised
                | some c =>
                  match ws, hs with
                  | w :: _, h :: _ =>
                    X.testRendererAt fuel p ⟨t.toArray⟩ ⟨c.toArray⟩ ⟨w * 96, h * 96⟩
                    return .value (← rdevRelease p)
                  | _, _ => fail .vectorBounds
            else return .value (← rdevRelease p) : RM RBack) h1)) :
    R (X.cRenderMarkdown fuel text css width height h) := by
  unfold Externals.cRenderMarkdown
  refine ends_bind (runs_rdevNew (ha.st hf hK) 0) ?_
  rintro p h1 ⟨hp, d, hd, e1, e2, e3⟩
  have := hR p d h1 hp hd ⟨RDev.new_holds 0, rfl, e1, e2, e3⟩
  have f1 : Top h1.objs text tt := hd.fact (q := (text, tt)) (by simp [argFacts])
  have f2 : Top h1.objs css tc := hd.fact (q := (css, tc)) (by simp [argFacts])
  have f3 : Top h1.objs width tw := hd.fact (q := (width, tw)) (by simp [argFacts])
  have f4 : Top h1.objs height th := hd.fact (q := (height, th)) (by simp [argFacts])
  refine ends_bind (runs_realData f3) ?_
  rintro a h2 ⟨rfl, rfl⟩
  cases hw : tw.doubles with
  | none => rw [hw] at this; exact this
  | some ws =>
    rw [hw] at this
    refine ends_bind (runs_realData f4) ?_
    rintro a h2 ⟨rfl, rfl⟩
    cases hh : th.doubles with
    | none => rw [hh] at this; exact this
    | some hs =>
      rw [hh] at this
      refine ends_bind (runs_xlength f1) ?_
      rintro a h2 ⟨rfl, rfl⟩
      refine ends_bind (runs_xlength f2) ?_
      rintro a h2 ⟨rfl, rfl⟩
      exact this

/-- what the call has to do if the renderer does `rm` -/
def CallResult (h : RHeap) (K : List (RVal × RTm)) (rm : Except Panic Released) (res : Except Panic (RBack × RHeap)) : Prop :=
  match rm with
  | .ok out => ∃ v h', res = .ok (.value v, h') ∧ St h' h.stack h.precious h.devs K ∧ Top h'.objs v out.term
  | .error e => res = .error e

theorem runs_call (X : Externals) (fuel : Nat) (hf : h.Fresh) (ha : CallArgs h text css width height tt tc tw th)
    {xs ys : List (List UInt8)} {ws hs : List ℚ} (ht : tt.Strings xs) (hc : tc.Strings ys) (hw : tw.doubles = some ws)
    (hh : th.doubles = some hs) (hn : xs = [] ∨ ys = [] ∨ ws ≠ [] ∧ hs ≠ [])
    (hK : ∀ q ∈ K, Top h.objs q.1 q.2 ∧ q.1 ∈ h.stack ++ h.precious) :
    CallResult h (argFacts text css width height tt tc tw th ++ K)
      (X.renderMarkdown fuel (xs.map fun b => ⟨b.toArray⟩) (ys.map fun b => ⟨b.toArray⟩) (firstOf ws) (firstOf hs))
      (X.cRenderMarkdown fuel text css width height h) := by
  refine ends_call X fuel hf ha hK ?_
  intro p d h1 hp hd hr
  rw [hw, hh]
  simp only [Strings.count ht, Strings.count hc]
  have hrel : ∀ {d' ts' r' gs' h2}, DevSt h2 h.stack h.precious h.devs p (argFacts text css width height tt tc tw th ++ K) d' ts' →
      SameDev d' ts' r' gs' → CallResult h (argFacts text css width height tt tc tw th ++ K) r'.release
        ((do return .value (← rdevRelease p) : RM RBack) h2) := by
    intro d' ts' r' gs' h2 hd' hr'
    obtain ⟨out, e, a, h3, e3, v, rfl, s3, t3⟩ := runs_release hp hd' hr'
    rw [e]
    exact ⟨v, h3, e3, s3, t3⟩
  cases xs with
  | nil =>
    rw [if_neg (by simp)]
    exact hrel hd hr
  | cons x xs =>
    cases ys with
    | nil =>
      rw [if_neg (by simp)]
      exact hrel hd hr
    | cons y ys =>
      rw [if_pos (by simp)]
      obtain ⟨n1, n2⟩ : ws ≠ [] ∧ hs ≠ [] := by simpa using hn
      refine ends_bind (hd.step (Q := fun r => r = some x) fun s hk => runs_firstString s (hk _ (by simp [argFacts])) ht) ?_
      rintro a h2 ⟨hd2, rfl⟩
      refine ends_bind (hd2.step (Q := fun r => r = some y) fun s hk => runs_firstString s (hk _ (by simp [argFacts])) hc) ?_
      rintro a h3 ⟨hd3, rfl⟩
      cases ws with
      | nil => exact absurd rfl n1
      | cons w ws =>
        cases hs with
        | nil => exact absurd rfl n2
        | cons k hs =>
          have := runs_testRenderer X fuel ⟨x.toArray⟩ ⟨y.toArray⟩ ⟨w * 96, k * 96⟩ hd3 hr
          simp only [Externals.renderMarkdown, List.map_cons, firstOf, List.headD_cons]
          cases ho : X.testRenderer fuel (RDev.new 0) (some ⟨x.toArray⟩) (some ⟨y.toArray⟩) ⟨w * 96, k * 96⟩ with
          | error e =>
            rw [ho] at this
            exact fails_first this
          | ok q =>
            obtain ⟨r', b⟩ := q
            rw [ho] at this
            refine ends_bind this ?_
            rintro - h4 ⟨d4, ts4, gs4, hd4, hr4⟩
            exact hrel hd4 hr4

/-- **C82, what holds** If the texts are character vectors and the sizes are vectors of type double, with elements if
something is to be drawn: `render_markdown()` returns the list of what the renderer draws (if that returns), whenever R
collects garbage; the protection stack, the preserved objects and the devices are as before, and all that was in use keeps its contents. -/
theorem C82_returns_partial (X : Externals) (fuel : Nat) (hf : h.Fresh) (ha : CallArgs h text css width height tt tc tw th)
    {xs ys : List (List UInt8)} {ws hs : List ℚ} (ht : tt.Strings xs) (hc : tc.Strings ys) (hw : tw.doubles = some ws)
    (hh : th.doubles = some hs) (hn : xs = [] ∨ ys = [] ∨ ws ≠ [] ∧ hs ≠ []) {out : Released}
    (ho : X.renderMarkdown fuel (xs.map fun b => ⟨b.toArray⟩) (ys.map fun b => ⟨b.toArray⟩) (firstOf ws) (firstOf hs) = .ok out) :
    ∃ v h', X.cRenderMarkdown fuel text css width height h = .ok (.value v, h') ∧ Top h'.objs v out.term ∧
      h'.stack = h.stack ∧ h'.precious = h.precious ∧ h'.devs = h.devs ∧
      ∀ w t, w ∈ h.stack ++ h.precious → Top h.objs w t → Top h'.objs w t := by
  have main := fun (K : List (RVal × RTm)) hK => runs_call (K := K) X fuel hf ha ht hc hw hh hn hK
  rw [ho] at main
  obtain ⟨v, h', e, s, t⟩ := main [] (by simp)
  refine ⟨v, h', e, t, s.stack, s.precious, s.devs, fun w t hw ht => ?_⟩
  obtain ⟨v2, h2, e2, s2, -⟩ := main [(w, t)] (by rintro q hq; rw [List.mem_singleton.1 hq]; exact ⟨ht, hw⟩)
  rw [e] at e2
  cases e2
  exact s2.facts (w, t) (by simp)

/-- With such arguments the call fails only if the renderer fails in a way that is not caught. -/
theorem C82_fails_partial (X : Externals) (fuel : Nat) (hf : h.Fresh) (ha : CallArgs h text css width height tt tc tw th)
    {xs ys : List (List UInt8)} {ws hs : List ℚ} (ht : tt.Strings xs) (hc : tc.Strings ys) (hw : tw.doubles = some ws)
    (hh : th.doubles = some hs) (hn : xs = [] ∨ ys = [] ∨ ws ≠ [] ∧ hs ≠ []) {e : Panic}
    (ho : X.renderMarkdown fuel (xs.map fun b => ⟨b.toArray⟩) (ys.map fun b => ⟨b.toArray⟩) (firstOf ws) (firstOf hs) = .error e) :
    X.cRenderMarkdown fuel text css width height h = .error e := by
  have := runs_call (K := []) X fuel hf ha ht hc hw hh hn (by simp)
  rw [ho] at this
  exact this

/-- An R error in the call leaves a list and a device behind that nothing can release any more. -/
def Leaks (h h' : RHeap) : Prop :=
  ∃ p d, h.devs p = none ∧ h'.devs p = some d ∧ h'.precious = d.grobs :: h.precious

theorem DevSt.leaks (hd : DevSt h S P D p K d ts) (hp : D p = none) {h0 : RHeap} (e1 : h0.devs = D) (e2 : h0.precious = P) :
    Leaks h0 h := by
  obtain ⟨l, hs, -⟩ := hd.elems
  exact ⟨p, d, by rw [e1]; exact hp, by rw [hs.devs]; exact withDev_self _ _ _, by rw [hs.precious, e2]⟩

/-- A size that is not of type double, for instance an integer, or texts that are not character vectors, for instance
a factor, raise an R error after the device has been made: it is never released. -/
theorem C82_raised (X : Externals) (fuel : Nat) (hf : h.Fresh) (ha : CallArgs h text css width height tt tc tw th)
    (hr : tw.doubles = none ∨ th.doubles = none ∨ 1 ≤ tt.count ∧ 1 ≤ tc.count ∧ (tt.notStrings = true ∨
      (∃ x xs, tt.Strings (x :: xs)) ∧ tc.notStrings = true)) :
    ∃ h', X.cRenderMarkdown fuel text css width height h = .ok (.raised, h') ∧ Leaks h h' := by
  refine ends_call (K := []) (R := fun res => ∃ h', res = .ok (RBack.raised, h') ∧ Leaks h h') X fuel hf ha (by simp) ?_
  intro p d h1 hp hd _
  have done : ∀ {h2}, DevSt h2 h.stack h.precious h.devs p (argFacts text css width height tt tc tw th ++ []) d [] →
      ∃ h', (pure RBack.raised : RM RBack) h2 = .ok (RBack.raised, h') ∧ Leaks h h' :=
    fun hd => ⟨_, rfl, hd.leaks hp rfl rfl⟩
  cases hw : tw.doubles with
  | none => exact done hd
  | some ws =>
    cases hh : th.doubles with
    | none => exact done hd
    | some hs =>
      simp only [hw, hh, reduceCtorEq, false_or] at hr
      obtain ⟨n1, n2, hr⟩ := hr
      simp only [ge_iff_le, n1, n2, and_self, if_true]
      rcases hr with hr | ⟨⟨x, xs, ht⟩, hr⟩
      · refine ends_bind (R := fun res => ∃ h', res = .ok (RBack.raised, h') ∧ Leaks h h')
          (runs_firstString_none (hd.fact (q := (text, tt)) (by simp [argFacts])) hr) ?_
        rintro a h2 ⟨rfl, rfl⟩
        exact done hd
      · refine ends_bind (R := fun res => ∃ h', res = .ok (RBack.raised, h') ∧ Leaks h h')
          (hd.step (Q := fun r => r = some x) fun s hk => runs_firstString s (hk _ (by simp [argFacts])) ht) ?_
        rintro a h2 ⟨hd2, rfl⟩
        refine ends_bind (R := fun res => ∃ h', res = .ok (RBack.raised, h') ∧ Leaks h h')
          (runs_firstString_none (hd2.fact (q := (css, tc)) (by simp [argFacts])) hr) ?_
        rintro a h2 ⟨rfl, rfl⟩
        exact done hd2

/-- A size without elements is read outside of its bounds. -/
theorem C82_outside (X : Externals) (fuel : Nat) (hf : h.Fresh) (ha : CallArgs h text css width height tt tc tw th)
    {x y : List UInt8} {xs ys : List (List UInt8)} {ws hs : List ℚ} (ht : tt.Strings (x :: xs)) (hc : tc.Strings (y :: ys))
    (hw : tw.doubles = some ws) (hh : th.doubles = some hs) (hn : ws = [] ∨ hs = []) :
    X.cRenderMarkdown fuel text css width height h = .error .vectorBounds := by
  refine ends_call (K := []) (R := fun res => res = .error .vectorBounds) X fuel hf ha (by simp) ?_
  intro p d h1 hp hd _
  rw [hw, hh]
  simp only [Strings.count ht, Strings.count hc]
  rw [if_pos (by simp)]
  refine ends_bind (R := fun res => res = .error .vectorBounds)
    (hd.step (Q := fun r => r = some x) fun s hk => runs_firstString s (hk _ (by simp [argFacts])) ht) ?_
  rintro a h2 ⟨hd2, rfl⟩
  refine ends_bind (R := fun res => res = .error .vectorBounds)
    (hd2.step (Q := fun r => r = some y) fun s hk => runs_firstString s (hk _ (by simp [argFacts])) hc) ?_
  rintro a h3 ⟨hd3, rfl⟩
  rcases hn with rfl | rfl
  · rfl
  · cases ws <;> rfl

/-- **C82, as stated**: whatever the arguments are, nothing is read outside of its bounds or after it has been reclaimed, and
when the call comes back to R, with a value or through an error, the preserved objects and devices are as before. -/
def C82_full : Prop :=
  ∀ (X : Externals) (fuel : Nat) (h : RHeap) (text css width height : RVal) (tt tc tw th : RTm), h.Fresh →
    CallArgs h text css width height tt tc tw th →
    X.cRenderMarkdown fuel text css width height h ≠ .error .vectorBounds ∧
    X.cRenderMarkdown fuel text css width height h ≠ .error .useAfterFree ∧
    ∀ b h', X.cRenderMarkdown fuel text css width height h = .ok (b, h') → h'.precious = h.precious ∧ h'.devs = h.devs

/-- a memory with two strings, the numbers 5 and 4, the integer 5 and an empty vector of type double -/
def argHeap : RHeap where
  objs := fun r => match r with
    | 0 => some ⟨.str "a", [], []⟩
    | 1 => some ⟨.str "p { color: red }", [], []⟩
    | 2 => some ⟨.real [5], [], []⟩
    | 3 => some ⟨.real [4], [], []⟩
    | 4 => some ⟨.int 5, [], []⟩
    | 5 => some ⟨.real [], [], []⟩
    | 6 => some ⟨.strs, [], []⟩
    | _ => none
  next := 7
  stack := [.ref 0, .ref 1, .ref 2, .ref 3, .ref 4, .ref 5, .ref 6]
  precious := []
  devs := fun _ => none
  nextDev := 0
  clock := 0
  adv := fun _ _ => true

theorem argHeap_fresh : argHeap.Fresh := by
  refine ⟨fun r hr => ?_, fun _ _ => rfl⟩
  match r, hr with
  | n + 7, _ => rfl

theorem argHeap_args {a b c d : Nat} {ka kb kc kd : RKind} (ha : argHeap.objs a = some ⟨ka, [], []⟩)
    (hb : argHeap.objs b = some ⟨kb, [], []⟩) (hc : argHeap.objs c = some ⟨kc, [], []⟩)
    (hd : argHeap.objs d = some ⟨kd, [], []⟩) :
    CallArgs argHeap (.ref a) (.ref b) (.ref c) (.ref d) (.node ka [] []) (.node kb [] []) (.node kc [] []) (.node kd [] []) := by
  have main : ∀ {x : Nat} {k : RKind}, argHeap.objs x = some ⟨k, [], []⟩ →
      Top argHeap.objs (.ref x) (.node k [] []) ∧ RVal.ref x ∈ argHeap.stack ++ argHeap.precious := by
    intro x k hx
    refine ⟨.ref hx .nil .nil, ?_⟩
    match x, hx with
    | 0, _ | 1, _ | 2, _ | 3, _ | 4, _ | 5, _ | 6, _ => decide
    | n + 7, hx => cases hx
  exact ⟨main ha, main hb, main hc, main hd⟩

/-- `render_markdown("a", width_in = 5L)` -/
theorem C82_full_false : ¬ C82_full := by
  intro H
  let X := opsExternals plainOps
  have ha := argHeap_args (a := 0) (b := 1) (c := 4) (d := 3) rfl rfl rfl rfl
  obtain ⟨h', e, p, d, -, -, hl⟩ := C82_raised X 0 argHeap_fresh ha (.inl rfl)
  have := ((H X 0 _ _ _ _ _ _ _ _ _ argHeap_fresh ha).2.2 _ _ e).1
  rw [hl] at this
  cases this

/-- `render_markdown("a", css, 5, 4)`, with garbage collection at every opportunity: a list with two labels -/
example : ∃ v h' out, (opsExternals plainOps).cRenderMarkdown 40 (.ref 0) (.ref 1) (.ref 2) (.ref 3) argHeap =
    .ok (.value v, h') ∧ Top h'.objs v out.term ∧ labels (.ok out) = some ["a", "b"] ∧ h'.precious = [] := by
  have hl : labels ((opsExternals plainOps).renderMarkdown 40 [⟨"a".toUTF8.toList.toArray⟩] [⟨"p { color: red }".toUTF8.toList.toArray⟩] 5 4) =
      some ["a", "b"] := by decide +kernel
  obtain ⟨out, ho⟩ : ∃ out, (opsExternals plainOps).renderMarkdown 40 [⟨"a".toUTF8.toList.toArray⟩] [⟨"p { color: red }".toUTF8.toList.toArray⟩] 5 4 = .ok out := by
    cases e : (opsExternals plainOps).renderMarkdown 40 [⟨"a".toUTF8.toList.toArray⟩] [⟨"p { color: red }".toUTF8.toList.toArray⟩] 5 4 with
    | error q => rw [e] at hl; cases hl
    | ok out => exact ⟨out, rfl⟩
  rw [ho] at hl
  obtain ⟨v, h', e, t, -, hp, -⟩ := C82_returns_partial (opsExternals plainOps) 40 argHeap_fresh
    (argHeap_args (a := 0) (b := 1) (c := 2) (d := 3) rfl rfl rfl rfl) (.one _ _ _) (.one _ _ _) rfl rfl (.inr (.inr ⟨by simp, by simp⟩))
    (out := out) (by simpa [firstOf] using ho)
  exact ⟨v, h', out, e, t, hl, hp⟩

/-- `render_markdown(character(0), css, 5, 4)`: an empty list -/
example : ∃ v h', (opsExternals plainOps).cRenderMarkdown 40 (.ref 6) (.ref 1) (.ref 2) (.ref 3) argHeap =
    .ok (.value v, h') ∧ Top h'.objs v (.node .vec [] [("class", .str "gList")]) ∧ h'.precious = [] := by
  obtain ⟨v, h', e, t, -, hp, -⟩ := C82_returns_partial (opsExternals plainOps) 40 argHeap_fresh
    (argHeap_args (a := 6) (b := 1) (c := 2) (d := 3) rfl rfl rfl rfl) (xs := []) (.many [] []) (.one _ _ _) rfl rfl (.inl rfl)
    (C59_no_input _ _ _ _ _ _ (.inl rfl))
  exact ⟨v, h', e, t, hp⟩

/-- `render_markdown(5L, css, 5, 4)` -/
example : ∃ h', (opsExternals plainOps).cRenderMarkdown 40 (.ref 4) (.ref 1) (.ref 2) (.ref 3) argHeap = .ok (.raised, h') ∧
    Leaks argHeap h' :=
  C82_raised _ _ argHeap_fresh (argHeap_args (a := 4) (b := 1) (c := 2) (d := 3) rfl rfl rfl rfl)
    (.inr (.inr ⟨by decide, by decide, .inl rfl⟩))

/-- `render_markdown("a", css, numeric(0), 4)` -/
example : (opsExternals plainOps).cRenderMarkdown 40 (.ref 0) (.ref 1) (.ref 5) (.ref 3) argHeap = .error .vectorBounds :=
  C82_outside _ _ argHeap_fresh (argHeap_args (a := 0) (b := 1) (c := 5) (d := 3) rfl rfl rfl rfl) (.one _ _ _) (.one _ _ _)
    rfl rfl (.inl rfl)

end Sinab
