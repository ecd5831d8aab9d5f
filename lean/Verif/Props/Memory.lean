import Verif.Lemmas.RHeap
import Verif.Props.Device

/-! # C66 the memory of R is used correctly by the code of the render device -/

namespace Sinab

open RM

variable {h : RHeap} {S P : List RVal} {D : Nat → Option CDev} {K : List (RVal × RTm)}

/-! ### src/r_callbacks.c -/

theorem runs_getNamespace (hs : St h S P D K) (n : String) :
    Runs (getNamespace n) h fun v h' => St h' S P D K ∧ v = .perm "namespace" := by
  unfold getNamespace
  refine .bind ((runs_mkString hs n).imp ?_)
  rintro s h1 ⟨s1, t1⟩
  refine .bind ((runs_protect s1 t1).imp ?_)
  rintro - h2 s2
  refine .bind ((runs_install s2 _).imp ?_)
  rintro f h3 ⟨rfl, s3⟩
  refine .bind ((runs_alloc s3 .lang (ts := [("", .perm "getNamespace"), ("", .str n)])
    (.cons (.perm _) (.cons ((s3.facts _ List.mem_cons_self).shows rfl) .nil))).imp ?_)
  rintro call h4 ⟨s4, t4, -, -⟩
  refine .bind ((runs_protect s4 t4).imp ?_)
  rintro - h5 s5
  refine .bind ((runs_eval_namespace s5 List.mem_cons_self).imp ?_)
  rintro v h6 ⟨s6, rfl⟩
  refine .bind ((runs_unprotect s6 2 (by simp) rfl (K' := K)
    (fun q hq => ⟨by simp [hq], by simpa using hs.rooted q hq⟩)).imp ?_)
  rintro - h7 ⟨s7, -⟩
  exact .pure ⟨s7, rfl⟩

/-- slots after the arguments have been filled in -/
def putArgs (ts : List (String × RTm)) (i : Nat) : List (String × RTm) → List (String × RTm)
  | [] => ts
  | a :: as => putArgs (ts.set i a) (i + 1) as

theorem putArgs_fill (args : List (String × RTm)) : ∀ (pre post : List (String × RTm)),
    post.length = args.length → putArgs (pre ++ post) pre.length args = pre ++ args := by
  induction args with
  | nil => intro pre post h; simp only [List.length_nil, List.length_eq_zero_iff] at h; simp [putArgs, h]
  | cons a args ih =>
    intro pre post h
    cases post with
    | nil => simp at h
    | cons b post =>
      have := ih (pre ++ [a]) post (by simpa using h)
      simpa [putArgs] using this

/-- the arguments are protected values with these contents -/
def ArgsOk (K : List (RVal × RTm)) (args : List (String × RVal)) (ts : List (String × RTm)) : Prop :=
  List.Forall₂ (fun a t => a.1 = t.1 ∧ (a.2, t.2) ∈ K ∧ t.2.done = true) args ts

theorem runs_fillArgs {call : RVal} (hne : ∀ q ∈ K, q.1 ≠ call) {args : List (String × RVal)}
    {targs : List (String × RTm)} (ha : ArgsOk K args targs) : ∀ {h : RHeap} {ts} (i : Nat),
    St h S P D ((call, .node .lang ts []) :: K) → i + args.length ≤ ts.length →
    Runs (fillArgs call i args) h fun _ h' =>
      St h' S P D ((call, .node .lang (putArgs ts i targs) []) :: K) := by
  induction ha with
  | nil => intro h ts i hs _; exact .pure hs
  | @cons a t args targs ha _ ih =>
    intro h ts i hs hl
    obtain ⟨tag, x⟩ := a
    obtain ⟨tag', t⟩ := t
    obtain ⟨rfl, hx, ht⟩ := ha
    simp only [List.length_cons] at hl
    have hi : ts[i]? = some (ts[i]'(by omega)) := List.getElem?_eq_getElem _
    refine Runs.bind ((runs_setElt hs hne rfl (n := (ts[i]'(by omega)).1)
      (t₀ := (ts[i]'(by omega)).2) hi ((hs.facts _ (List.mem_cons_of_mem _ hx)).shows ht)).imp ?_)
    rintro - h1 s1
    refine Runs.bind ((runs_install s1 _).imp ?_)
    rintro - h2 ⟨-, s2⟩
    refine Runs.bind ((runs_setTag s2 hne rfl (n₀ := (ts[i]'(by omega)).1) (t := t) (i := i) (n := tag)
      (by rw [List.getElem?_set_self (by omega)])).imp ?_)
    rintro - h3 s3
    rw [List.set_set] at s3
    exact ih (i + 1) s3 (by simp; omega)

/-- the common form of the functions that call a function of grid -/
noncomputable def gridCall (fn : String) (n : Nat) (args : List (String × RVal)) : RM RVal := do
  let grid ← getNamespace "grid"
  protect grid
  let fn ← findFun fn grid
  protect fn
  let call ← allocVec .lang n
  protect call
  setElt call 0 fn
  fillArgs call 1 args
  let out ← eval call
  unprotect 3
  return out

theorem runs_gridCall (hs : St h S P D K) {fn : String} (hf : fn ≠ "getNamespace")
    {args : List (String × RVal)} {targs : List (String × RTm)} (ha : ArgsOk K args targs)
    {n : Nat} (hn : n = args.length + 1) :
    Runs (gridCall fn n args) h fun v h' => St h' S P D K ∧ Top h'.objs v (.call fn targs) := by
  subst hn
  unfold gridCall
  refine .bind ((runs_getNamespace hs "grid").imp ?_)
  rintro grid h1 ⟨s1, rfl⟩
  refine .bind ((runs_protect s1 (.perm _)).imp ?_)
  rintro - h2 s2
  refine .bind ((runs_findFun s2 fn _).imp ?_)
  rintro v h3 ⟨rfl, s3⟩
  refine .bind ((runs_protect s3 (.perm _)).imp ?_)
  rintro - h4 s4
  refine .bind ((runs_allocVec s4 .lang (args.length + 1)).imp ?_)
  rintro call h5 ⟨s5, t5, ne5⟩
  refine .bind ((runs_protect s5 t5).imp ?_)
  rintro - h6 s6
  refine .bind ((runs_setElt s6 ne5 rfl (i := 0) (n := "") (t₀ := .nul) (t := .perm fn) (by simp)
    (.perm fn)).imp ?_)
  rintro - h7 s7
  refine .bind ((runs_fillArgs ne5 (args := args) (targs := targs) (ha.imp fun _ _ h =>
    ⟨h.1, List.mem_cons_of_mem _ (List.mem_cons_of_mem _ h.2.1), h.2.2⟩) 1 s7
    (by simp; omega)).imp ?_)
  rintro - h8 s8
  have e : putArgs ((List.replicate (args.length + 1) ("", RTm.nul)).set 0 ("", .perm fn)) 1 targs =
      ("", .perm fn) :: targs := by
    have := putArgs_fill targs [("", .perm fn)] (List.replicate args.length ("", RTm.nul))
      (by rw [List.length_replicate]; exact ha.length_eq)
    simpa [List.replicate_succ] using this
  rw [e] at s8
  refine .bind ((runs_eval s8 List.mem_cons_self hf).imp ?_)
  rintro v h9 ⟨s9, t9⟩
  refine .bind ((runs_unprotect s9 3 (by simp) rfl (K' := K)
    (fun q hq => ⟨by simp [hq], by simpa using hs.rooted q hq⟩)).imp ?_)
  rintro - h10 ⟨s10, e10⟩
  exact .pure ⟨s10, e10 ▸ t9⟩

theorem textGrob_eq (label x y hjust vjust gp : RVal) : textGrob label x y hjust vjust gp =
    gridCall "textGrob" 7 [("label", label), ("x", x), ("y", y), ("hjust", hjust),
      ("vjust", vjust), ("gp", gp)] := rfl

theorem rectGrob_eq (x y width height hjust vjust gp : RVal) :
    rectGrob x y width height hjust vjust gp =
    gridCall "rectGrob" 8 [("x", x), ("y", y), ("width", width), ("height", height),
      ("hjust", hjust), ("vjust", vjust), ("gp", gp)] := rfl

theorem linesGrob_eq (x y gp : RVal) : linesGrob x y gp =
    gridCall "linesGrob" 4 [("x", x), ("y", y), ("gp", gp)] := rfl

theorem runs_unitIn (hs : St h S P D K) {x : RVal} {xs : List ℚ} (hx : (x, RTm.reals xs) ∈ K) :
    Runs (unitIn x) h fun v h' => St h' S P D K ∧ Top h'.objs v (.inches xs) := by
  unfold unitIn
  refine .bind ((runs_getNamespace hs "grid").imp ?_)
  rintro grid h1 ⟨s1, rfl⟩
  refine .bind ((runs_protect s1 (.perm _)).imp ?_)
  rintro - h2 s2
  refine .bind ((runs_findFun s2 "unit" _).imp ?_)
  rintro v h3 ⟨rfl, s3⟩
  refine .bind ((runs_protect s3 (.perm _)).imp ?_)
  rintro - h4 s4
  refine .bind ((runs_allocVec s4 .lang 3).imp ?_)
  rintro call h5 ⟨s5, t5, ne5⟩
  refine .bind ((runs_protect s5 t5).imp ?_)
  rintro - h6 s6
  refine .bind ((runs_setElt s6 ne5 rfl (i := 0) (n := "") (t₀ := .nul) (t := .perm "unit") (by simp)
    (.perm _)).imp ?_)
  rintro - h7 s7
  refine .bind ((runs_setElt s7 ne5 rfl (i := 1) (n := "") (t₀ := .nul) (t := .reals xs) rfl
    ((s7.facts (x, .reals xs) (by simp only [List.mem_cons]; tauto)).shows rfl)).imp ?_)
  rintro - h8 s8
  refine .bind ((runs_mkString s8 "inches").imp ?_)
  rintro u h9 ⟨s9, t9⟩
  refine .bind ((runs_protect s9 t9).imp ?_)
  rintro - h10 s10
  have hu : u ≠ call := (s10.facts _ List.mem_cons_self).ne
    (s10.facts _ (List.mem_cons_of_mem _ List.mem_cons_self)) (by simp)
  have ne10 : ∀ q ∈ (u, RTm.str "inches") :: (RVal.perm "unit", RTm.perm "unit") ::
      (RVal.perm "namespace", RTm.perm "namespace") :: K, q.1 ≠ call := by
    intro q hq
    rcases List.mem_cons.1 hq with rfl | hq
    · exact hu
    · exact ne5 q hq
  have s10' := s10.sub (K' := (call, _) :: (u, RTm.str "inches") :: (RVal.perm "unit", RTm.perm "unit") ::
      (RVal.perm "namespace", RTm.perm "namespace") :: K)
      (fun q hq => by simp only [List.mem_cons] at hq ⊢; tauto)
  refine .bind ((runs_setElt s10' ne10 rfl (i := 2) (n := "") (t₀ := .nul) (t := .str "inches") rfl
    ((s10'.facts (u, .str "inches") (by simp only [List.mem_cons]; tauto)).shows rfl)).imp ?_)
  rintro - h11 s11
  refine .bind ((runs_install s11 _).imp ?_)
  rintro - h12 ⟨-, s12⟩
  refine .bind ((runs_setTag s12 ne10 rfl (n₀ := "") (t := .str "inches") (i := 2) (n := "units")
    rfl).imp ?_)
  rintro - h13 s13
  refine .bind ((runs_eval s13 (f := "unit") (n := "")
    (ts := [("", .reals xs), ("units", .str "inches")]) List.mem_cons_self (by simp)).imp ?_)
  rintro v h14 ⟨s14, t14⟩
  refine .bind ((runs_unprotect s14 4 (by simp) rfl (K' := K)
    (fun q hq => ⟨by simp [hq], by simpa using hs.rooted q hq⟩)).imp ?_)
  rintro - h15 ⟨s15, e15⟩
  exact .pure ⟨s15, e15 ▸ t14⟩

/-- a new value that is protected at once -/
theorem Runs.new {β : Type} {m : RM RVal} {f : RVal → RM β} {t : RTm} {Q : β → RHeap → Prop}
    (hm : Runs m h fun v h' => St h' S P D K ∧ Top h'.objs v t)
    (hf : ∀ v h', St h' (v :: S) P D ((v, t) :: K) → Runs (f v) h' Q) :
    Runs (m >>= fun v => protect v >>= fun _ => f v) h Q :=
  .bind (hm.imp fun v _ s => .bind ((runs_protect s.1 s.2).imp fun _ h2 s2 => hf v h2 s2))

theorem runs_linetypeArg (hs : St h S P D K) (gc : GCtx) :
    Runs (linetypeArg gc) h fun v h' => St h' S P D K ∧ Top h'.objs v (gparOf gc).lty.term := by
  unfold gparOf linetypeArg
  simp only
  split
  · exact runs_mkString hs _
  · split
    · exact runs_mkString hs _
    · exact runs_scalarInteger hs _

theorem runs_gparGcontext (hs : St h S P D K) (gc : GCtx) :
    Runs (gparGcontext gc) h fun v h' => St h' S P D K ∧ Top h'.objs v (gparOf gc).term := by
  unfold gparGcontext
  refine .new (runs_mkString hs _) fun col h1 s1 => ?_
  refine .new (runs_mkString s1 _) fun fill h2 s2 => ?_
  refine .new (runs_mkString s2 _) fun family h3 s3 => ?_
  refine .new (runs_scalarInteger s3 _) fun face h4 s4 => ?_
  refine .new (runs_scalarReal s4 _) fun size h5 s5 => ?_
  refine .new (runs_scalarReal s5 _) fun lineheight h6 s6 => ?_
  refine .new (runs_scalarReal s6 _) fun linewidth h7 s7 => ?_
  refine .new (runs_linetypeArg s7 _) fun linetype h8 s8 => ?_
  refine .new (runs_mkString s8 _) fun lineend h9 s9 => ?_
  refine .bind ((runs_getNamespace s9 "grid").imp ?_)
  rintro grid h10 ⟨s10, rfl⟩
  refine .bind ((runs_protect s10 (.perm _)).imp ?_)
  rintro - h11 s11
  refine .bind ((runs_findFun s11 "gpar" _).imp ?_)
  rintro v h12 ⟨rfl, s12⟩
  refine .bind ((runs_protect s12 (.perm _)).imp ?_)
  rintro - h13 s13
  refine .bind ((runs_allocVec s13 .lang 10).imp ?_)
  rintro call h14 ⟨s14, t14, ne14⟩
  refine .bind ((runs_protect s14 t14).imp ?_)
  rintro - h15 s15
  refine .bind ((runs_setElt s15 ne14 rfl (i := 0) (n := "") (t₀ := .nul) (t := .perm "gpar") rfl
    (.perm _)).imp ?_)
  rintro - h16 s16
  have hlty : (gparOf gc).lty.term.done = true := by
    cases (gparOf gc).lty <;> rfl
  refine .bind ((runs_fillArgs ne14 (targs := [("col", .str gc.color), ("fill", .str gc.fill),
    ("fontfamily", .str gc.fontfamily), ("fontface", .int gc.fontface),
    ("fontsize", .real gc.fontsize), ("lineheight", .real gc.lineheight),
    ("lty", (gparOf gc).lty.term), ("lwd", .real gc.linewidth), ("lineend", .str "butt")])
    ?_ 1 s16 (by simp)).imp ?_)
  · unfold ArgsOk
    repeat' apply List.Forall₂.cons
    all_goals first
      | exact .nil
      | exact ⟨rfl, by simp only [List.mem_cons, RTm.real, true_or, or_true], rfl⟩
      | exact ⟨rfl, by simp only [List.mem_cons, true_or, or_true], hlty⟩
  rintro - h17 s17
  refine .bind ((runs_eval s17 (f := "gpar") (n := "") List.mem_cons_self (by simp)).imp ?_)
  rintro v h18 ⟨s18, t18⟩
  refine .bind ((runs_unprotect s18 12 (by simp) rfl (K' := K)
    (fun q hq => ⟨by simp [hq], by simpa using hs.rooted q hq⟩)).imp ?_)
  rintro - h19 ⟨s19, e19⟩
  exact .pure ⟨s19, e19 ▸ t18⟩

/-! ### src/render_device.c -/

/-- devices with that at `p` being `d` -/
def withDev (D : Nat → Option CDev) (p : Nat) (d : CDev) : Nat → Option CDev :=
  fun q => if q = p then some d else D q

theorem runs_dev {p : Nat} {d : CDev} (hs : St h S P D K) (hd : D p = some d) :
    Runs (dev p) h fun d' h' => d' = d ∧ h' = h := by
  refine ⟨d, h, ?_, rfl, rfl⟩
  simp [dev, hs.devs, hd]

theorem Runs.dev {β : Type} {f : CDev → RM β} {Q : β → RHeap → Prop} {p : Nat} {d : CDev}
    (hs : St h S P D K) (hd : D p = some d) (hf : Runs (f d) h Q) :
    Runs (dev p >>= f) h Q := by
  refine .bind ((runs_dev hs hd).imp ?_)
  rintro _ _ ⟨rfl, rfl⟩
  exact hf

theorem withDev_self (D : Nat → Option CDev) (p : Nat) (d : CDev) : withDev D p d p = some d := by
  simp [withDev]

theorem runs_setDev {p : Nat} {d₀ d : CDev} (hs : St h S P (withDev D p d₀) K) :
    Runs (setDev p d) h fun _ h' => St h' S P (withDev D p d) K := by
  unfold setDev
  refine .bind ((runs_dev hs (d := d₀) (by simp [withDev])).imp ?_)
  rintro - h' ⟨-, rfl⟩
  refine ⟨(), _, rfl, ⟨hs.fresh.objs, ?_⟩, hs.stack, hs.precious, ?_, hs.facts, hs.rooted⟩
  · intro q hq
    have h1 := hs.fresh.devs q hq
    have : q ≠ p := by
      rintro rfl
      rw [hs.devs] at h1
      simp [withDev] at h1
    simp [this, h1]
  · funext q
    simp only [hs.devs, withDev]
    split <;> rfl

/-- a list under construction -/
def vecTm (l : List RTm) : RTm := .node .vec (l.map fun t => ("", t)) []

theorem runs_copyLoop {new old : RVal} (hne : ∀ q ∈ K, q.1 ≠ new) {lo : List RTm}
    (ho : (old, vecTm lo) ∈ K) : ∀ (n i : Nat) {h : RHeap} {l : List RTm},
    St h S P D ((new, vecTm l) :: K) → i + n ≤ l.length → i + n ≤ lo.length →
    l.take i = lo.take i →
    Runs (copyLoop new old i n) h fun _ h' => ∃ l' : List RTm,
      St h' S P D ((new, vecTm l') :: K) ∧ l'.length = l.length ∧
      l'.take (i + n) = lo.take (i + n) ∧ l'.drop (i + n) = l.drop (i + n) := by
  intro n
  induction n with
  | zero => intro i h l hs _ _ ht; exact .pure ⟨l, hs, rfl, ht, rfl⟩
  | succ n ih =>
    intro i h l hs h1 h2 ht
    refine Runs.bind ((runs_getElt (hs.facts _ (List.mem_cons_of_mem _ ho)) (i := i) (n := "")
      (t := lo[i]'(by omega)) (by simp [List.getElem?_eq_getElem (show i < lo.length by omega)])).imp ?_)
    rintro x h' ⟨rfl, hx⟩
    refine Runs.bind ((runs_setElt hs hne rfl (i := i) (n := "") (t₀ := l[i]'(by omega))
      (by simp [List.getElem?_eq_getElem (show i < l.length by omega)]) hx).imp ?_)
    rintro - h' s1
    have e : (l.map fun t => ("", t)).set i ("", lo[i]'(by omega)) =
        (l.set i (lo[i]'(by omega))).map fun t => ("", t) := by
      rw [List.map_set]
    rw [e] at s1
    have hi : i < l.length := by omega
    refine (ih (i + 1) s1 (by simp; omega) (by omega) ?_).imp ?_
    · rw [List.take_add_one, List.take_add_one, List.take_set_of_le (Nat.le_refl _), ht]
      simp [hi, show i < lo.length by omega]
    · rintro - h2 ⟨l', s2, e1, e2, e3⟩
      refine ⟨l', s2, by simpa using e1, ?_, ?_⟩
      · rw [show i + (n + 1) = i + 1 + n by omega]; exact e2
      · rw [show i + (n + 1) = i + 1 + n by omega, e3, List.drop_set_of_lt (by omega)]

/-- State with a device `d` at `p` that holds a list with the elements `ts`. -/
structure DevSt (h : RHeap) (S P : List RVal) (D : Nat → Option CDev) (p : Nat)
    (K : List (RVal × RTm)) (d : CDev) (ts : List RTm) : Prop where
  elems : ∃ l, St h S (d.grobs :: P) (withDev D p d) ((d.grobs, vecTm l) :: K) ∧
    l.length = d.capacity ∧ l.take d.size = ts
  other : ∀ q ∈ K, q.1 ≠ d.grobs ∧ q.1 ∈ S ++ P
  size : d.size = ts.length
  le : d.size ≤ d.capacity
  pos : 0 < d.capacity

variable {p : Nat} {d : CDev} {ts : List RTm}

theorem runs_grow (hd : DevSt h S P D p K d ts) :
    Runs (rdevGrowCapacity p) h fun _ h' => ∃ d', DevSt h' S P D p K d' ts ∧
      d'.capacity = 2 * d.capacity ∧ d'.size = d.size ∧ d'.y0 = d.y0 ∧ d'.bb = d.bb ∧
      d'.bbSet = d.bbSet := by
  obtain ⟨l, hs, hl, ht⟩ := hd.elems
  have hle := hd.le
  unfold rdevGrowCapacity
  refine .dev hs (withDev_self _ _ _) ?_
  refine .bind ((runs_allocVec hs .vec (2 * d.capacity)).imp ?_)
  rintro new h1 ⟨s1, t1, ne1⟩
  refine .bind ((runs_protect s1 t1).imp ?_)
  rintro - h2 s2
  have s2 : St h2 (new :: S) (d.grobs :: P) (withDev D p d)
      ((new, vecTm (List.replicate (2 * d.capacity) .nul)) :: (d.grobs, vecTm l) :: K) := by
    simpa [vecTm] using s2
  refine .bind ((runs_copyLoop ne1 (List.mem_cons_self) d.size 0 s2 (by simp; omega)
    (by omega) (by simp)).imp ?_)
  rintro - h3 ⟨l', s3, e1, e2, -⟩
  simp only [Nat.zero_add] at e2
  refine .bind ((runs_releaseObject s3 (P' := P) (K' := (new, vecTm l') :: K) (by simp) ?_).imp ?_)
  · intro q hq
    rcases List.mem_cons.1 hq with rfl | hq
    · simp
    · refine ⟨by simp [hq], ?_⟩
      have := (hd.other q hq).2
      simp only [List.mem_append, List.mem_cons] at this ⊢
      tauto
  rintro - h4 ⟨s4, -⟩
  refine .bind ((runs_preserve s4 (s4.facts _ List.mem_cons_self)).imp ?_)
  rintro - h5 s5
  refine .bind ((runs_setDev s5).imp ?_)
  rintro - h6 s6
  refine (runs_unprotect s6 1 (by simp) rfl (K' := (new, vecTm l') :: K) ?_).imp ?_
  · intro q hq
    rcases List.mem_cons.1 hq with rfl | hq
    · simp [vecTm]
    · refine ⟨by simp [hq], ?_⟩
      have := (hd.other q hq).2
      simp only [List.drop_succ_cons, List.drop_zero, List.mem_append, List.mem_cons] at this ⊢
      tauto
  · rintro - h7 ⟨s7, -⟩
    refine ⟨{ d with grobs := new, capacity := 2 * d.capacity },
      ⟨⟨l', s7, by simpa using e1, by rw [← ht]; exact e2⟩, ?_, hd.size, ?_, ?_⟩, rfl, rfl, rfl, rfl, rfl⟩
    · intro q hq
      exact ⟨ne1 q (List.mem_cons_of_mem _ hq), (hd.other q hq).2⟩
    · show d.size ≤ 2 * d.capacity
      omega
    · have := hd.pos
      show 0 < 2 * d.capacity
      omega

theorem runs_add {s : RVal} {t : RTm} (hd : DevSt h S P D p K d ts) (hs : (s, t) ∈ K)
    (ht : t.done = true) :
    Runs (rdevAddSEXP p s) h fun _ h' => ∃ d', DevSt h' S P D p K d' (ts ++ [t]) ∧
      d'.y0 = d.y0 ∧ d'.bb = d.bb ∧ d'.bbSet = d.bbSet := by
  have key : ∀ {h : RHeap} {d : CDev}, DevSt h S P D p K d ts → d.size < d.capacity →
      Runs (do
        let d ← dev p
        setElt d.grobs d.size s
        setDev p { d with size := d.size + 1 }) h fun _ h' => ∃ d', DevSt h' S P D p K d' (ts ++ [t]) ∧
      d'.y0 = d.y0 ∧ d'.bb = d.bb ∧ d'.bbSet = d.bbSet := by
    intro h d hd hlt
    obtain ⟨l, h0, hl, he⟩ := hd.elems
    refine .dev h0 (withDev_self _ _ _) ?_
    have hi : d.size < l.length := by omega
    refine .bind ((runs_setElt h0 (fun q hq => (hd.other q hq).1) rfl (i := d.size) (n := "")
      (t₀ := l[d.size]) (by simp [List.getElem?_eq_getElem hi])
      ((h0.facts _ (List.mem_cons_of_mem _ hs)).shows ht)).imp ?_)
    rintro - h1 s1
    have e : (l.map fun t => ("", t)).set d.size ("", t) = (l.set d.size t).map fun t => ("", t) := by
      rw [List.map_set]
    rw [e] at s1
    refine (runs_setDev s1).imp ?_
    rintro - h2 s2
    refine ⟨{ d with size := d.size + 1 }, ⟨⟨l.set d.size t, s2, by simpa using hl, ?_⟩, hd.other,
      by simp [hd.size], hlt, hd.pos⟩, rfl, rfl, rfl⟩
    show (l.set d.size t).take (d.size + 1) = _
    rw [List.take_add_one, List.take_set_of_le (Nat.le_refl _), he]
    simp [hi]
  unfold rdevAddSEXP
  obtain ⟨l, h0, hl, he⟩ := hd.elems
  refine .dev h0 (withDev_self _ _ _) ?_
  by_cases hc : d.size = d.capacity
  · simp only [hc, if_true]
    refine .bind ((runs_grow hd).imp ?_)
    rintro - h1 ⟨d1, hd1, c1, c2, c3, c4, c5⟩
    refine (key hd1 ?_).imp ?_
    · have := hd.pos
      omega
    · rintro - h2 ⟨d2, hd2, b1, b2, b3⟩
      exact ⟨d2, hd2, b1.trans c3, b2.trans c4, b3.trans c5⟩
  · simp only [hc, if_false]
    have := hd.le
    exact key hd (by omega)

theorem runs_rdevNew (hs : St h S P D K) (y0 : ℚ) :
    Runs (rdevNew y0) h fun p h' => D p = none ∧ ∃ d, DevSt h' S P D p K d [] ∧ d.y0 = y0 ∧
      d.bb = ⟨0, 0, 0, 0⟩ ∧ d.bbSet = false := by
  unfold rdevNew
  have hfree : D h.nextDev = none := by rw [← hs.devs]; exact hs.fresh.devs _ (Nat.le_refl _)
  have h0 : Runs calloc h fun p h' => p = h.nextDev ∧
      St h' S P (withDev D p ⟨.nul, 0, 0, 0, ⟨0, 0, 0, 0⟩, false⟩) K := by
    refine ⟨_, _, rfl, rfl, ⟨hs.fresh.objs, ?_⟩, hs.stack, hs.precious, ?_, hs.facts, hs.rooted⟩
    · intro q hq
      have hq : h.nextDev + 1 ≤ q := hq
      have := hs.fresh.devs q (by omega)
      simp only [this]
      rw [if_neg (by omega)]
    · funext q
      simp only [withDev, hs.devs]
  refine .bind (h0.imp ?_)
  rintro p h1 ⟨rfl, s1⟩
  refine .bind ((runs_allocVec s1 .vec 5).imp ?_)
  rintro v h2 ⟨s2, t2, ne2⟩
  refine .bind ((runs_protect s2 t2).imp ?_)
  rintro - h3 s3
  refine .bind ((runs_preserve s3 (s3.facts _ List.mem_cons_self)).imp ?_)
  rintro - h4 s4
  refine .bind ((runs_unprotect s4 1 (by simp) rfl (K' := (v, vecTm (List.replicate 5 .nul)) :: K)
    ?_).imp ?_)
  · intro q hq
    rcases List.mem_cons.1 hq with rfl | hq
    · simp [vecTm]
    · have := hs.rooted q hq
      refine ⟨by simp [hq], ?_⟩
      simp only [List.drop_succ_cons, List.drop_zero, List.mem_append, List.mem_cons] at this ⊢
      tauto
  rintro - h5 ⟨s5, -⟩
  refine .bind ((runs_setDev s5).imp ?_)
  rintro - h6 s6
  refine .pure ⟨hfree, ⟨v, 0, 5, y0, ⟨0, 0, 0, 0⟩, false⟩,
    ⟨⟨List.replicate 5 .nul, s6, by simp, by simp⟩, ?_, rfl, by simp, by simp⟩, rfl, rfl, rfl⟩
  intro q hq
  exact ⟨ne2 q hq, by simpa using hs.rooted q hq⟩

/-- State while a grob is made for the device. -/
theorem DevSt.add_protected (hd : DevSt h S P D p K d ts) {h' : RHeap} {S' : List RVal}
    {l : List RTm} {K' : List (RVal × RTm)} {g : RVal} {f : String} {as : List (String × RTm)}
    (hl : l.length = d.capacity ∧ l.take d.size = ts)
    (hs : St h' S' (d.grobs :: P) (withDev D p d)
      ((g, .call f as) :: K'))
    (hS : ∀ x ∈ S, x ∈ S') (hg : g ∈ S')
    (hK : ∀ q ∈ (d.grobs, vecTm l) :: K, q ∈ K') {n : Nat} (hn : S'.drop n = S)
    (hn' : n ≤ S'.length) :
    Runs (do rdevAddSEXP p g; unprotect n) h' fun _ h' => ∃ d', DevSt h' S P D p K d'
      (ts ++ [.call f as]) ∧ d'.y0 = d.y0 ∧ d'.bb = d.bb ∧ d'.bbSet = d.bbSet := by
  have hne : g ≠ d.grobs := (hs.facts _ List.mem_cons_self).ne
    (hs.facts _ (List.mem_cons_of_mem _ (hK _ List.mem_cons_self))) (by simp)
  have hd' : DevSt h' S' P D p ((g, .call f as) :: K) d ts := by
    refine ⟨⟨l, hs.sub ?_, hl.1, hl.2⟩, ?_, hd.size, hd.le, hd.pos⟩
    · intro q hq
      simp only [List.mem_cons] at hq
      rcases hq with rfl | rfl | hq
      · exact List.mem_cons_of_mem _ (hK _ List.mem_cons_self)
      · exact List.mem_cons_self
      · exact List.mem_cons_of_mem _ (hK _ (List.mem_cons_of_mem _ hq))
    · intro q hq
      rcases List.mem_cons.1 hq with rfl | hq
      · exact ⟨hne, by simp [hg]⟩
      · have := hd.other q hq
        refine ⟨this.1, ?_⟩
        simp only [List.mem_append] at this ⊢
        rcases this.2 with h1 | h1
        · exact Or.inl (hS _ h1)
        · exact Or.inr h1
  refine .bind ((runs_add hd' List.mem_cons_self rfl).imp ?_)
  rintro - h1 ⟨d1, hd1, e1, e2, e3⟩
  obtain ⟨l1, s1, hl1, ht1⟩ := hd1.elems
  refine (runs_unprotect s1 n hn' hn (K' := (d1.grobs, vecTm l1) :: K) ?_).imp ?_
  · intro q hq
    rcases List.mem_cons.1 hq with rfl | hq
    · simp
    · refine ⟨by simp [hq], ?_⟩
      have := (hd.other q hq).2
      simp only [List.mem_append, List.mem_cons] at this ⊢
      tauto
  · rintro - h2 ⟨s2, -⟩
    exact ⟨d1, ⟨⟨l1, s2, hl1, ht1⟩, fun q hq => ⟨(hd1.other q (List.mem_cons_of_mem _ hq)).1,
      (hd.other q hq).2⟩, hd1.size, hd1.le, hd1.pos⟩, e1, e2, e3⟩

theorem gpar_done (g : Gpar) : g.term.done = true := rfl

theorem runs_drawText (hd : DevSt h S P D p K d ts) (label : String) (x y : ℚ) (gc : GCtx) :
    Runs (rdevDrawText p label x y gc) h fun _ h' => ∃ d', DevSt h' S P D p K d'
      (ts ++ [(Grob.text label x (d.y0 - y) 0 0 (gparOf gc)).term]) ∧ d'.y0 = d.y0 ∧ d'.bb = d.bb ∧
      d'.bbSet = d.bbSet := by
  obtain ⟨l, h0, hl⟩ := hd.elems
  unfold rdevDrawText
  refine .new (runs_mkString h0 _) fun slabel h1 s1 => ?_
  refine .new (runs_scalarReal s1 _) fun sx h2 s2 => ?_
  refine .new (runs_unitIn s2 List.mem_cons_self) fun sxu h3 s3 => ?_
  refine .dev s3 (withDev_self _ _ _) ?_
  refine .new (runs_scalarReal s3 _) fun sy h4 s4 => ?_
  refine .new (runs_unitIn s4 List.mem_cons_self) fun syu h5 s5 => ?_
  refine .new (runs_scalarReal s5 _) fun hjust h6 s6 => ?_
  refine .new (runs_scalarReal s6 _) fun vjust h7 s7 => ?_
  refine .new (runs_gparGcontext s7 gc) fun gp h8 s8 => ?_
  rw [textGrob_eq]
  refine .new (runs_gridCall s8 (by simp) (targs := [("label", .str label), ("x", .inches [x]),
    ("y", .inches [d.y0 - y]), ("hjust", .real 0), ("vjust", .real 0), ("gp", (gparOf gc).term)])
    ?_ rfl) fun grob h9 s9 => ?_
  · unfold ArgsOk
    repeat' apply List.Forall₂.cons
    all_goals first
      | exact .nil
      | exact ⟨rfl, by simp only [List.mem_cons, RTm.real, true_or, or_true], rfl⟩
  · exact hd.add_protected hl s9 (fun q hq => by simp [hq]) (by simp)
      (fun q hq => by simp only [List.mem_cons] at hq ⊢; tauto) rfl (by simp)

theorem runs_drawRect (hd : DevSt h S P D p K d ts) (x y width height : ℚ) (gc : GCtx) :
    Runs (rdevDrawRect p x y width height gc) h fun _ h' => ∃ d', DevSt h' S P D p K d'
      (ts ++ [(Grob.rect x (d.y0 - y) width height 0 1 (gparOf gc)).term]) ∧ d'.y0 = d.y0 ∧
      d'.bb = d.bb ∧ d'.bbSet = d.bbSet := by
  obtain ⟨l, h0, hl⟩ := hd.elems
  unfold rdevDrawRect
  refine .new (runs_scalarReal h0 _) fun sx h2 s2 => ?_
  refine .new (runs_unitIn s2 List.mem_cons_self) fun sxu h3 s3 => ?_
  refine .dev s3 (withDev_self _ _ _) ?_
  refine .new (runs_scalarReal s3 _) fun sy h4 s4 => ?_
  refine .new (runs_unitIn s4 List.mem_cons_self) fun syu h5 s5 => ?_
  refine .new (runs_scalarReal s5 _) fun sw h6 s6 => ?_
  refine .new (runs_unitIn s6 List.mem_cons_self) fun swu h7 s7 => ?_
  refine .new (runs_scalarReal s7 _) fun sh h8 s8 => ?_
  refine .new (runs_unitIn s8 List.mem_cons_self) fun shu h9 s9 => ?_
  refine .new (runs_scalarReal s9 _) fun hjust h10 s10 => ?_
  refine .new (runs_scalarReal s10 _) fun vjust h11 s11 => ?_
  refine .new (runs_gparGcontext s11 gc) fun gp h12 s12 => ?_
  rw [rectGrob_eq]
  refine .new (runs_gridCall s12 (by simp) (targs := [("x", .inches [x]),
    ("y", .inches [d.y0 - y]), ("width", .inches [width]), ("height", .inches [height]),
    ("hjust", .real 0), ("vjust", .real 1), ("gp", (gparOf gc).term)])
    ?_ rfl) fun grob h13 s13 => ?_
  · unfold ArgsOk
    repeat' apply List.Forall₂.cons
    all_goals first
      | exact .nil
      | exact ⟨rfl, by simp only [List.mem_cons, RTm.real, true_or, or_true], rfl⟩
  · exact hd.add_protected hl s13 (fun q hq => by simp [hq]) (by simp)
      (fun q hq => by simp only [List.mem_cons] at hq ⊢; tauto) rfl (by simp)

theorem runs_drawLine (hd : DevSt h S P D p K d ts) (pts : List (ℚ × ℚ)) (gc : GCtx) :
    Runs (rdevDrawLine p pts gc) h fun _ h' => ∃ d', DevSt h' S P D p K d'
      (ts ++ [(Grob.lines (pts.map (·.1)) (pts.map fun q => d.y0 - q.2) (gparOf gc)).term]) ∧
      d'.y0 = d.y0 ∧ d'.bb = d.bb ∧ d'.bbSet = d.bbSet := by
  obtain ⟨l, h0, hl⟩ := hd.elems
  unfold rdevDrawLine
  refine .dev h0 (withDev_self _ _ _) ?_
  refine .new ((runs_alloc h0 (.real _) .nil).imp fun _ _ q => ⟨q.1, q.2.1⟩) fun sx h2 s2 => ?_
  refine .new ((runs_alloc s2 (.real _) .nil).imp fun _ _ q => ⟨q.1, q.2.1⟩) fun sy h3 s3 => ?_
  refine .new (runs_unitIn s3 (xs := pts.map (·.1)) (by simp [RTm.reals])) fun sxu h4 s4 => ?_
  refine .new (runs_unitIn s4 (xs := pts.map fun q => d.y0 - q.2) (by simp [RTm.reals]))
    fun syu h5 s5 => ?_
  refine .new (runs_gparGcontext s5 gc) fun gp h6 s6 => ?_
  rw [linesGrob_eq]
  refine .new (runs_gridCall s6 (by simp) (targs := [("x", .inches (pts.map (·.1))),
    ("y", .inches (pts.map fun q => d.y0 - q.2)), ("gp", (gparOf gc).term)])
    ?_ rfl) fun grob h7 s7 => ?_
  · unfold ArgsOk
    repeat' apply List.Forall₂.cons
    all_goals first
      | exact .nil
      | exact ⟨rfl, by simp only [List.mem_cons, true_or, or_true], rfl⟩
  · exact hd.add_protected hl s7 (fun q hq => by simp [hq]) (by simp)
      (fun q hq => by simp only [List.mem_cons] at hq ⊢; tauto) rfl (by simp)

theorem runs_recordBBox (hd : DevSt h S P D p K d ts) (r : RDev) (hy : d.y0 = r.y0)
    (hb : d.bb = r.bb) (hbs : d.bbSet = r.bbSet) (a b c e : ℚ) :
    Runs (rdevRecordBBox p a b c e) h fun _ h' => ∃ d', DevSt h' S P D p K d' ts ∧
      d'.y0 = d.y0 ∧ d'.bb = (r.recordBBox a b c e).bb ∧
      d'.bbSet = (r.recordBBox a b c e).bbSet := by
  obtain ⟨l, h0, hl⟩ := hd.elems
  unfold rdevRecordBBox
  refine .dev h0 (withDev_self _ _ _) ?_
  refine (runs_setDev h0).imp ?_
  rintro - h1 s1
  refine ⟨{ d with
      bb := (RDev.recordBBox ⟨[], 0, 0, d.y0, d.bb, d.bbSet⟩ a b c e).bb
      bbSet := (RDev.recordBBox ⟨[], 0, 0, d.y0, d.bb, d.bbSet⟩ a b c e).bbSet },
    ⟨⟨l, s1, hl⟩, hd.other, hd.size, hd.le, hd.pos⟩, rfl, ?_, ?_⟩
  · simp only [RDev.recordBBox_eq, hy, hb, hbs]
  · simp only [RDev.recordBBox_eq]

/-- the device with memory `d` and the device without memory `r` hold the same -/
structure SameDev (d : CDev) (ts : List RTm) (r : RDev) (gs : List Grob) : Prop where
  holds : r.Holds gs
  terms : ts = gs.map Grob.term
  y0 : d.y0 = r.y0
  bb : d.bb = r.bb
  bbSet : d.bbSet = r.bbSet

theorem runs_perform (c : CCall) {r : RDev} {gs : List Grob} (hd : DevSt h S P D p K d ts)
    (hr : SameDev d ts r gs) :
    Runs (c.perform p) h fun _ h' => ∃ d' ts' r' gs', c.on r = .ok r' ∧
      DevSt h' S P D p K d' ts' ∧ SameDev d' ts' r' gs' := by
  have key : ∀ (m : RM Unit) (g : Grob), (Runs m h fun _ h' => ∃ d', DevSt h' S P D p K d'
      (ts ++ [g.term]) ∧ d'.y0 = d.y0 ∧ d'.bb = d.bb ∧ d'.bbSet = d.bbSet) →
      Runs m h fun _ h' => ∃ d' ts' r' gs', r.add g = .ok r' ∧
      DevSt h' S P D p K d' ts' ∧ SameDev d' ts' r' gs' := by
    intro m g hm
    obtain ⟨r', hr', hh, e1, e2, e3⟩ := RDev.add_spec hr.holds g
    refine hm.imp ?_
    rintro - h' ⟨d', hd', f1, f2, f3⟩
    exact ⟨d', _, r', _, hr', hd', hh, by simp [hr.terms], by rw [f1, e1, hr.y0],
      by rw [f2, e2, hr.bb], by rw [f3, e3, hr.bbSet]⟩
  cases c with
  | text label x y gc =>
    refine key _ (.text label x (r.y0 - y) 0 0 (gparOf gc)) ?_
    rw [← hr.y0]
    exact runs_drawText hd label x y gc
  | rect x y w hh gc =>
    refine key _ (.rect x (r.y0 - y) w hh 0 1 (gparOf gc)) ?_
    rw [← hr.y0]
    exact runs_drawRect hd x y w hh gc
  | line pts gc =>
    refine key _ (.lines (pts.map (·.1)) (pts.map fun q => r.y0 - q.2) (gparOf gc)) ?_
    rw [← hr.y0]
    exact runs_drawLine hd pts gc
  | bbox a b c e =>
    refine (runs_recordBBox hd r hr.y0 hr.bb hr.bbSet a b c e).imp ?_
    rintro - h' ⟨d', hd', f1, f2, f3⟩
    obtain ⟨hh, hy⟩ := RDev.recordBBox_holds hr.holds a b c e
    exact ⟨d', _, _, _, rfl, hd', hh, hr.terms, by rw [f1, hy, hr.y0], f2, f3⟩

theorem runs_performAll (cs : List CCall) : ∀ {h : RHeap} {d : CDev} {ts : List RTm} {r : RDev}
    {gs : List Grob}, DevSt h S P D p K d ts → SameDev d ts r gs →
    Runs (performAll p cs) h fun _ h' => ∃ d' ts' r' gs', onAll r cs = .ok r' ∧
      DevSt h' S P D p K d' ts' ∧ SameDev d' ts' r' gs' := by
  induction cs with
  | nil => intro h d ts r gs hd hr; exact .pure ⟨d, ts, r, gs, rfl, hd, hr⟩
  | cons c cs ih =>
    intro h d ts r gs hd hr
    refine Runs.bind ((runs_perform c hd hr).imp ?_)
    rintro - h1 ⟨d1, ts1, r1, gs1, e1, hd1, hr1⟩
    refine (ih hd1 hr1).imp ?_
    rintro - h2 ⟨d2, ts2, r2, gs2, e2, hd2, hr2⟩
    refine ⟨d2, ts2, r2, gs2, ?_, hd2, hr2⟩
    simp [onAll, e1, e2, bind, Except.bind]

/-- the attribute with the bounding box -/
def bboxAttr (d : CDev) : List (String × RTm) :=
  if d.bbSet then [("bbox", .node .list [("xmin", .real d.bb.xmin), ("ymin", .real d.bb.ymin),
    ("xmax", .real d.bb.xmax), ("ymax", .real d.bb.ymax)] [])] else []

theorem runs_attachBBox {new : RVal} {l : List RTm} (hs : St h S P D ((new, vecTm l) :: K))
    (hne : ∀ q ∈ K, q.1 ≠ new) (d : CDev) :
    Runs (attachBBox new d) h fun _ h' =>
      St h' S P D ((new, .node .vec (l.map fun t => ("", t)) (bboxAttr d)) :: K) := by
  unfold attachBBox bboxAttr
  split
  · refine .new (runs_scalarReal hs _) fun xmin h1 s1 => ?_
    refine .new (runs_scalarReal s1 _) fun ymin h2 s2 => ?_
    refine .new (runs_scalarReal s2 _) fun xmax h3 s3 => ?_
    refine .new (runs_scalarReal s3 _) fun ymax h4 s4 => ?_
    refine .bind ((runs_alloc s4 .vec (ts := [("xmin", .nul), ("ymin", .nul), ("xmax", .nul),
      ("ymax", .nul)]) (.cons .nul (.cons .nul (.cons .nul (.cons .nul .nil))))).imp ?_)
    rintro bbox h5 ⟨s5, t5, -, ne5⟩
    refine .bind ((runs_protect s5 t5).imp ?_)
    rintro - h6 s6
    refine .bind ((runs_setElt s6 ne5 rfl (i := 0) (n := "xmin") (t₀ := .nul)
      (t := .real d.bb.xmin) rfl ((s6.facts (xmin, .real d.bb.xmin) (by simp [RTm.real])).shows rfl)).imp ?_)
    rintro - h7 s7
    refine .bind ((runs_setElt s7 ne5 rfl (i := 1) (n := "ymin") (t₀ := .nul)
      (t := .real d.bb.ymin) rfl ((s7.facts (ymin, .real d.bb.ymin) (by simp [RTm.real])).shows rfl)).imp ?_)
    rintro - h8 s8
    refine .bind ((runs_setElt s8 ne5 rfl (i := 2) (n := "xmax") (t₀ := .nul)
      (t := .real d.bb.xmax) rfl ((s8.facts (xmax, .real d.bb.xmax) (by simp [RTm.real])).shows rfl)).imp ?_)
    rintro - h9 s9
    refine .bind ((runs_setElt s9 ne5 rfl (i := 3) (n := "ymax") (t₀ := .nul)
      (t := .real d.bb.ymax) rfl ((s9.facts (ymax, .real d.bb.ymax) (by simp [RTm.real])).shows rfl)).imp ?_)
    rintro - h10 s10
    refine .bind ((runs_install s10 _).imp ?_)
    rintro - h11 ⟨-, s11⟩
    have hb : bbox ≠ new := fun e => ne5 (new, vecTm l) (by simp) e.symm
    -- forget the four numbers, which are parts of the box now
    have s12 := s11.sub (K' := (new, vecTm l) :: (bbox, .node .vec [("xmin", .real d.bb.xmin),
      ("ymin", .real d.bb.ymin), ("xmax", .real d.bb.xmax), ("ymax", .real d.bb.ymax)] []) :: K)
      (by intro q hq; simp only [List.mem_cons] at hq ⊢; simp only [List.set_cons_zero, List.set_cons_succ]; tauto)
    have hne' : ∀ q ∈ (new, vecTm l) :: K, q.1 ≠ bbox := by
      intro q hq
      rcases List.mem_cons.1 hq with rfl | hq
      · exact hb.symm
      · exact ne5 q (by simp [hq])
    refine .bind ((runs_setAttrib (name := "bbox") (x := bbox) (t := .node .list [("xmin", .real d.bb.xmin),
      ("ymin", .real d.bb.ymin), ("xmax", .real d.bb.xmax), ("ymax", .real d.bb.ymax)] [])
      (K' := (bbox, .node .list [("xmin", .real d.bb.xmin),
      ("ymin", .real d.bb.ymin), ("xmax", .real d.bb.xmax), ("ymax", .real d.bb.ymax)] []) :: K)
      s12 ?_ ?_ rfl List.mem_cons_self rfl).imp ?_)
    · intro h s
      refine (runs_finish_vec (s.sub (K' := (bbox, .node .vec [("xmin", .real d.bb.xmin),
        ("ymin", .real d.bb.ymin), ("xmax", .real d.bb.xmax), ("ymax", .real d.bb.ymax)] []) ::
          (new, vecTm l) :: K) ?_) hne').imp ?_
      · intro q hq; simp only [List.mem_cons] at hq ⊢; tauto
      · intro _ h' s'
        exact s'.sub (by intro q hq; simp only [List.mem_cons] at hq ⊢; simp only [vecTm] at hq ⊢; tauto)
    · intro q hq
      rcases List.mem_cons.1 hq with rfl | hq
      · exact hb
      · exact hne q hq
    rintro - h13 s13
    refine (runs_unprotect s13 5 (by simp) rfl ?_).imp fun _ _ s => s.1
    intro q hq
    simp only [List.drop_succ_cons, List.drop_zero]
    rcases List.mem_cons.1 hq with rfl | hq
    · exact ⟨List.mem_cons_self, hs.rooted (new, vecTm l) List.mem_cons_self⟩
    · exact ⟨by simp [hq], hs.rooted q (List.mem_cons_of_mem _ hq)⟩
  · exact .pure hs

theorem runs_rdevRelease (hp : D p = none) (hd : DevSt h S P D p K d ts) :
    Runs (rdevRelease p) h fun v h' => St h' S P D K ∧
      Top h'.objs v (.node .vec (ts.map fun t => ("", t)) (bboxAttr d ++ [("class", .str "gList")])) := by
  obtain ⟨l, hs, hl, ht⟩ := hd.elems
  have hle := hd.le
  unfold rdevRelease
  refine .dev hs (withDev_self _ _ _) ?_
  refine .bind ((runs_allocVec hs .vec d.size).imp ?_)
  rintro new h1 ⟨s1, t1, ne1⟩
  refine .bind ((runs_protect s1 t1).imp ?_)
  rintro - h2 s2
  have s2 : St h2 (new :: S) (d.grobs :: P) (withDev D p d)
      ((new, vecTm (List.replicate d.size .nul)) :: (d.grobs, vecTm l) :: K) := by
    simpa [vecTm] using s2
  refine .bind ((runs_copyLoop ne1 (List.mem_cons_self) d.size 0 s2 (by simp)
    (by omega) (by simp)).imp ?_)
  rintro - h3 ⟨l', s3, e1, e2, -⟩
  have el : l' = ts := by
    simp only [Nat.zero_add, List.length_replicate] at e1 e2
    rw [← ht, ← e2, List.take_of_length_le (by omega)]
  subst el
  refine .bind ((runs_releaseObject s3 (P' := P) (K' := (new, vecTm l') :: K) (by simp) ?_).imp ?_)
  · intro q hq
    rcases List.mem_cons.1 hq with rfl | hq
    · simp
    · refine ⟨by simp [hq], ?_⟩
      have := (hd.other q hq).2
      simp only [List.mem_append, List.mem_cons] at this ⊢
      tauto
  rintro - h4 ⟨s4, -⟩
  have neK : ∀ q ∈ K, q.1 ≠ new := fun q hq => ne1 q (List.mem_cons_of_mem _ hq)
  refine .bind ((runs_attachBBox s4 neK d).imp ?_)
  rintro - h5 s5
  refine .new (runs_mkString s5 "gList") fun cl h6 s6 => ?_
  have hcl : cl ≠ new := (s6.facts _ List.mem_cons_self).ne
    (s6.facts _ (List.mem_cons_of_mem _ List.mem_cons_self)) (by simp)
  have s7 := s6.sub (K' := (new, .node .vec (l'.map fun t => ("", t)) (bboxAttr d)) ::
    (cl, .str "gList") :: K) (by intro q hq; simp only [List.mem_cons] at hq ⊢; tauto)
  refine .bind ((runs_setAttrib (name := "class") (x := cl) (t := .str "gList") s7
    (fun s => runs_finish_done s (k := .str "gList") (ts := []) (as := []) (by simp [RTm.str]) rfl) ?_ rfl
    List.mem_cons_self rfl).imp ?_)
  · intro q hq
    rcases List.mem_cons.1 hq with rfl | hq
    · exact hcl
    · exact neK q hq
  rintro - h8 s8
  have hfree : Runs (free p) h8 fun _ h' => St h' (cl :: new :: S) P D
      ((new, .node .vec (l'.map fun t => ("", t)) (bboxAttr d ++ [("class", .str "gList")])) ::
        (cl, .str "gList") :: K) := by
    unfold free
    refine .dev s8 (withDev_self _ _ _) ?_
    refine ⟨(), _, rfl, ⟨s8.fresh.objs, ?_⟩, s8.stack, s8.precious, ?_, s8.facts, s8.rooted⟩
    · intro q hq
      simp only [s8.fresh.devs q hq, ite_self]
    · funext q
      simp only [s8.devs, withDev]
      by_cases hq : q = p
      · subst hq; simp [hp]
      · simp [hq]
  refine .bind (hfree.imp ?_)
  rintro - h9 s9
  refine .bind ((runs_unprotect s9 2 (by simp) rfl (K' := K) ?_).imp ?_)
  · intro q hq
    exact ⟨by simp [hq], by simpa using (hd.other q hq).2⟩
  rintro - h10 ⟨s10, e10⟩
  exact .pure ⟨s10, e10 ▸ s9.facts _ List.mem_cons_self⟩

/-- For all drawing calls and however R collects garbage: the code of the device runs through
(no use of reclaimed memory, no index out of bounds, no protection error); the list it returns
has exactly the contents of the model of the device without memory; protection stack, preserved
objects and devices are as before, and values the caller had protected keep their contents. -/
theorem C66_device_memory (h : RHeap) (hf : h.Fresh) (y0 : ℚ) (cs : List CCall) :
    ∃ v h' r out, deviceSession y0 cs h = .ok (v, h') ∧ onAll (RDev.new y0) cs = .ok r ∧
      r.release = .ok out ∧ Top h'.objs v out.term ∧
      h'.stack = h.stack ∧ h'.precious = h.precious ∧ h'.devs = h.devs ∧
      ∀ w t, w ∈ h.stack ++ h.precious → Top h.objs w t → Top h'.objs w t := by
  have main : ∀ K : List (RVal × RTm), (∀ q ∈ K, Top h.objs q.1 q.2 ∧ q.1 ∈ h.stack ++ h.precious) →
      Runs (deviceSession y0 cs) h fun v h' => St h' h.stack h.precious h.devs K ∧
        ∃ r out, onAll (RDev.new y0) cs = .ok r ∧ r.release = .ok out ∧ Top h'.objs v out.term := by
    intro K hK
    have hs : St h h.stack h.precious h.devs K :=
      ⟨hf, rfl, rfl, rfl, fun q hq => (hK q hq).1, fun q hq => (hK q hq).2⟩
    unfold deviceSession
    refine .bind ((runs_rdevNew hs y0).imp ?_)
    rintro p h1 ⟨hp, d, hd, e1, e2, e3⟩
    refine .bind ((runs_performAll cs (r := RDev.new y0) (gs := []) hd
      ⟨RDev.new_holds y0, rfl, e1, e2, e3⟩).imp ?_)
    rintro - h2 ⟨d2, ts2, r2, gs2, e, hd2, hr2⟩
    refine (runs_rdevRelease hp hd2).imp ?_
    rintro v h3 ⟨s3, t3⟩
    refine ⟨s3, r2, _, e, RDev.release_spec hr2.holds, ?_⟩
    have : (Released.mk (gs2.map some) (if r2.bbSet then some r2.bb else none)).term =
        .node .vec (ts2.map fun t => ("", t)) (bboxAttr d2 ++ [("class", .str "gList")]) := by
      unfold Released.term bboxAttr
      rw [hr2.bb, hr2.bbSet, hr2.terms]
      cases r2.bbSet <;> simp [Function.comp_def]
    rw [this]
    exact t3
  obtain ⟨v, h', e, s, r, out, e1, e2, e3⟩ := main [] (by simp)
  refine ⟨v, h', r, out, e, e1, e2, e3, s.stack, s.precious, s.devs, ?_⟩
  intro w t hw ht
  obtain ⟨v2, h2, f, s2, -⟩ := main [(w, t)] (by simp [ht]; simpa using hw)
  rw [e] at f
  cases f
  exact s2.facts (w, t) List.mem_cons_self

theorem exec_on (c : DrawCall) (hv : c.Valid) :
    ∃ k, c.ccall = .ok k ∧ ∀ d : RDev, d.exec c = k.on d := by
  cases c with
  | text label x y font color =>
    refine ⟨_, by simp only [DrawCall.ccall, cstring_valid hv, GCtx.setColor_ok, bind, Except.bind]
                  rfl, fun d => ?_⟩
    simp only [RDev.exec, cstring_valid hv, GCtx.setColor_ok, bind, Except.bind, CCall.on]
  | rect x y w h fill =>
    refine ⟨_, by simp only [DrawCall.ccall, GCtx.setColor_ok, GCtx.setFill_ok, bind, Except.bind]
                  rfl, fun d => ?_⟩
    simp only [RDev.exec, GCtx.setColor_ok, GCtx.setFill_ok, bind, Except.bind, CCall.on]
  | line pts color width style =>
    refine ⟨_, by simp only [DrawCall.ccall, GCtx.setColor_ok, bind, Except.bind]
                  rfl, fun d => ?_⟩
    simp only [RDev.exec, GCtx.setColor_ok, bind, Except.bind, CCall.on]
  | bbox x y w h => exact ⟨_, rfl, fun d => rfl⟩

theorem execAll_onAll : ∀ (cs : List DrawCall), (∀ c ∈ cs, c.Valid) →
    ∃ ks, ccallAll cs = .ok ks ∧ ∀ d : RDev, d.execAll cs = onAll d ks := by
  intro cs
  induction cs with
  | nil => intro _; exact ⟨[], rfl, fun d => rfl⟩
  | cons c cs ih =>
    intro hv
    obtain ⟨k, hk, ek⟩ := exec_on c (hv c List.mem_cons_self)
    obtain ⟨ks, hks, eks⟩ := ih fun c hc => hv c (List.mem_cons_of_mem _ hc)
    refine ⟨k :: ks, by simp [ccallAll, hk, hks, bind, Except.bind, pure, Except.pure], fun d => ?_⟩
    simp only [RDev.execAll, onAll, ek, bind, Except.bind]
    cases k.on d with
    | error e => rfl
    | ok d' => exact eks d'

/-- R receives a list whose elements are the grobs of the drawing calls in order, each made by
the call of a function of grid with the arguments given by `DrawCall.grob`, for every way of
collecting garbage. -/
theorem C66_drawn (h : RHeap) (hf : h.Fresh) (y0 : ℚ) (cs : List DrawCall)
    (hv : ∀ c ∈ cs, c.Valid) :
    ∃ ks v h' attrs, ccallAll cs = .ok ks ∧ deviceSession y0 ks h = .ok (v, h') ∧
      Top h'.objs v (.node .vec ((cs.filterMap (·.grob y0)).map fun g => ("", g.term)) attrs) ∧
      ("class", .str "gList") ∈ attrs := by
  obtain ⟨ks, hk, ek⟩ := execAll_onAll cs hv
  obtain ⟨v, h', r, out, e, e1, e2, t, -⟩ := C66_device_memory h hf y0 ks
  obtain ⟨d, r', hd, hr, hg⟩ := C01_grobs_in_order y0 cs hv
  rw [ek, e1] at hd
  cases hd
  rw [e2] at hr
  cases hr
  unfold Released.term at t
  rw [hg, List.map_map] at t
  exact ⟨ks, v, h', _, hk, e, t, List.mem_append_right _ List.mem_cons_self⟩

/-- drawing a text with a NUL character is not covered: it never reaches C -/
example : (DrawCall.text "a\x00" 0 0 GCtx.new ⟨0, 0, 0, 1⟩).ccall = .error .interiorNul := by
  rfl

/-- an empty memory in which R collects garbage at every opportunity -/
def eagerHeap : RHeap where
  objs := fun _ => none
  next := 0
  stack := []
  precious := []
  devs := fun _ => none
  nextDev := 0
  clock := 0
  adv := fun _ _ => true

theorem eagerHeap_fresh : eagerHeap.Fresh := ⟨fun _ _ => rfl, fun _ _ => rfl⟩

/-- Seven grobs, so that the list has to grow, and a box, with garbage collection at every
opportunity: the list has seven elements and both attributes. -/
example : ∃ v h', deviceSession 2 (.bbox 0 0 1 1 :: List.replicate 7 (.line [(0, 0), (1, 1/2)] GCtx.new))
      eagerHeap = .ok (v, h') ∧
    Top h'.objs v (.node .vec (List.replicate 7 ("", .call "linesGrob" [("x", .inches [0, 1]),
        ("y", .inches [2, 3/2]), ("gp", (gparOf GCtx.new).term)]))
      [("bbox", .node .list [("xmin", .real 0), ("ymin", .real 1), ("xmax", .real 1),
        ("ymax", .real 2)] []), ("class", .str "gList")]) := by
  obtain ⟨v, h', r, out, e, e1, e2, t, -⟩ := C66_device_memory eagerHeap eagerHeap_fresh 2
    (.bbox 0 0 1 1 :: List.replicate 7 (.line [(0, 0), (1, 1/2)] GCtx.new))
  refine ⟨v, h', e, ?_⟩
  have f : (onAll (RDev.new 2) (.bbox 0 0 1 1 :: List.replicate 7 (.line [(0, 0), (1, 1/2)] GCtx.new))
      >>= RDev.release) = .ok ⟨List.replicate 7 (some (.lines [0, 1] [2, 3/2] (gparOf GCtx.new))),
        some ⟨0, 1, 1, 2⟩⟩ := by decide +kernel
  rw [e1] at f
  simp only [bind, Except.bind, e2] at f
  cases f
  exact t

theorem not_reach_nil {objs : Nat → Option RObj} {r : Nat} : ¬ Reach objs [] r := by
  intro hr
  generalize hl : ([] : List RVal) = l at hr
  induction hr with
  | root h => subst hl; simp at h
  | step _ _ _ ih => exact ih

/-- two numbers that are protected only after both have been made -/
noncomputable def lateProtect (x y : ℚ) : RM Unit := do
  let sx ← scalarReal x
  let sy ← scalarReal y
  protect sx
  protect sy

/-- A program that protects a value too late is told apart: it uses reclaimed memory when R
collects garbage in between. -/
theorem C66_late_protection_fails (x y : ℚ) :
    lateProtect x y eagerHeap = .error .useAfterFree := by
  simp [lateProtect, scalarReal, alloc, gc, eagerHeap, protect, access, bind, StateT.bind,
    Except.bind, not_reach_nil]

end Sinab
