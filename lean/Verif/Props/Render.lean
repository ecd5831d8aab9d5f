import Verif.Model.Render
import Verif.Lemmas.Fuel
import Verif.Lemmas.ConstructGood
import Verif.Spec.Page
import Verif.Spec.Forest
import Verif.Props.Paint

/-! C59: failures are contained, and leave no half-drawn page. -/

namespace Sinab

/-- What the bytes of a string stand for: the characters they encode in UTF-8, or nothing if
they are not UTF-8. -/
def Decodes (bytes : ByteArray) (t : Text) : Prop :=
  bytes = t.utf8Encode ∨ (t = [] ∧ ¬ ∃ u : Text, bytes = u.utf8Encode)

/-- a byte string that is not UTF-8 -/
def NotUtf8 (bytes : ByteArray) : Prop := ¬ ∃ u : Text, bytes = u.utf8Encode

/-- the page of a markdown text: nothing if the text is not UTF-8 -/
def Externals.Html (X : Externals) (bytes : ByteArray) (html : Text) : Prop :=
  (∃ md : Text, bytes = md.utf8Encode ∧ X.markdown md = .ok html) ∨ (NotUtf8 bytes ∧ html = [])

theorem fromUTF8_none {b : ByteArray} (h : NotUtf8 b) : String.fromUTF8? b = none := by
  unfold String.fromUTF8?
  rw [dif_neg]
  intro hv
  obtain ⟨m, hm⟩ := hv
  exact h ⟨m, hm⟩

theorem fromUTF8_some (t : Text) :
    String.fromUTF8? t.utf8Encode = some (String.ofList t) := by
  unfold String.fromUTF8?
  rw [dif_pos ⟨t, rfl⟩]
  rfl

theorem cstringToStr_none {b : ByteArray} (h : NotUtf8 b) : cstringToStr (some b) = .ok none := by
  rw [cstringToStr, fromUTF8_none h]
  rfl

theorem cstringToStr_some (t : Text) : cstringToStr (some t.utf8Encode) = .ok (some t) := by
  rw [cstringToStr, fromUTF8_some]
  simp

/-- the device after painting, and whether an error is printed; see `Externals.testRenderer` -/
def outcome (d : RDev) (t : Trace) : Except Panic (RDev × Bool) :=
  match d.perform t.calls t.panic with
  | (d, none) => .ok (d, false)
  | (d, some p) => if p.caught then .ok (d, true) else .error p

theorem testRenderer_eq (X : Externals) {text css : ByteArray} {html sheet : Text}
    (ht : X.Html text html) (hc : Decodes css sheet) (n : Nat) (d : RDev) (size : PVec2 Length) :
    X.testRenderer n d (some text) (some css) size = outcome d (X.renderHtml n html sheet size) := by
  have h1 : (cstringToStr (some css) >>= fun o => Except.ok (ε := Panic) (o.getD [])) = .ok sheet := by
    rcases hc with rfl | ⟨rfl, hc⟩
    · rw [cstringToStr_some]; rfl
    · rw [cstringToStr_none hc]; rfl
  have h2 : cstringToStr (some css) = .ok (some sheet) ∨
      (cstringToStr (some css) = .ok none ∧ sheet = []) := by
    rcases hc with rfl | ⟨rfl, hc⟩
    · exact .inl (cstringToStr_some _)
    · exact .inr ⟨cstringToStr_none hc, rfl⟩
  unfold Externals.testRenderer outcome
  rcases ht with ⟨md, rfl, hm⟩ | ⟨hb, rfl⟩
  · rw [cstringToStr_some]
    simp only [bind, Except.bind, hm]
    rcases h2 with h2 | ⟨h2, rfl⟩ <;> rw [h2] <;> rfl
  · rw [cstringToStr_none hb]
    simp only [bind, Except.bind]
    rcases h2 with h2 | ⟨h2, rfl⟩ <;> rw [h2] <;> rfl

/-! ## Painting completes -/

mutual

theorem hasNul_textOk : ∀ (f : Fragment) (anc : List Fragment), f.hasNul = false →
    ∀ p ∈ f.places anc, p.2.textOk
  | .text st r t, anc, h => by
    intro p hp
    simp only [Fragment.places, List.mem_singleton] at hp
    subst hp
    intro x hx
    simp only [Fragment.ownText, Option.some.injEq] at hx
    subst hx
    simpa [Fragment.hasNul] using h
  | .box st g m cs, anc, h => by
    intro p hp
    simp only [Fragment.places, List.mem_cons] at hp
    rcases hp with rfl | hp
    · intro x hx; simp [Fragment.ownText] at hx
    · exact hasNulAll_textOk cs _ h p hp
  | .anonymous r cs m, anc, h => by
    intro p hp
    simp only [Fragment.places, List.mem_cons] at hp
    rcases hp with rfl | hp
    · intro x hx; simp [Fragment.ownText] at hx
    · exact hasNulAll_textOk cs _ h p hp

theorem hasNulAll_textOk : ∀ (fs anc : List Fragment), hasNulAll fs = false →
    ∀ p ∈ placesAll anc fs, p.2.textOk
  | [], _, _ => by simp [placesAll]
  | f :: fs, anc, h => by
    simp only [hasNulAll, Bool.or_eq_false_iff] at h
    intro p hp
    simp only [placesAll, List.mem_append] at hp
    rcases hp with hp | hp
    · exact hasNul_textOk f anc h.1 p hp
    · exact hasNulAll_textOk fs anc h.2 p hp

end

theorem perform_valid {cs : List DrawCall} : ∀ {d : RDev} {gs : List Grob}, d.Holds gs →
    (∀ c ∈ cs, c.Valid) → ∃ d', d.execAll cs = .ok d' ∧ d.perform cs none = (d', none) := by
  induction cs with
  | nil => intro d gs _ _; exact ⟨d, rfl, rfl⟩
  | cons c cs ih =>
    intro d gs h hv
    obtain ⟨d1, h1, hh1, _⟩ := RDev.exec_spec h c (hv c (by simp))
    obtain ⟨d2, h2, h3⟩ := ih hh1 fun c hc => hv c (by simp [hc])
    exact ⟨d2, by simp [RDev.execAll, h1, h2, bind, Except.bind], by rw [RDev.perform, h1]; exact h3⟩

/-- a page that could be laid out -/
theorem layoutHtml_ok {X : Externals} {n : Nat} {html css : Text} {size : PVec2 Length}
    {fs : List Fragment} (h : X.layoutHtml n html css size = .ok fs) :
    uprightAll fs ∧ hasNulAll fs = false := by
  unfold Externals.layoutHtml at h
  obtain ⟨d, _, h⟩ := bind_eq_ok.1 h
  unfold Externals.layoutDoc at h
  obtain ⟨a, _, h⟩ := bind_eq_ok.1 h
  obtain ⟨root, _, h⟩ := bind_eq_ok.1 h
  obtain ⟨gs, hg, h⟩ := bind_eq_ok.1 h
  split at h
  · cases h
  · rename_i hn
    cases h
    exact ⟨rootLayout_up hg, by simpa using hn⟩

/-- **C59, all or nothing**: if control returns, then either an error was reported, parsing,
styling or layout panicked, and the device is as before; or no error was reported, layout
completed, and every drawing call of the page was executed. -/
theorem C59_all_or_nothing (X : Externals) {text css : ByteArray} {html sheet : Text}
    (ht : X.Html text html) (hc : Decodes css sheet) (n : Nat) {d d' : RDev} {gs : List Grob}
    (hd : d.Holds gs) (size : PVec2 Length) (reported : Bool)
    (h : X.testRenderer n d (some text) (some css) size = .ok (d', reported)) :
    (reported = true ∧ d' = d ∧ ∃ p, X.layoutHtml n html sheet size = .error p) ∨
    (reported = false ∧ ∃ fs, X.layoutHtml n html sheet size = .ok fs ∧
      d.execAll (paintPage size fs).calls = .ok d') := by
  rw [testRenderer_eq X ht hc] at h
  unfold Externals.renderHtml at h
  cases hl : X.layoutHtml n html sheet size with
  | error p =>
    left
    rw [hl] at h
    simp only [Trace.after, outcome, RDev.perform] at h
    split at h
    · cases h
      exact ⟨rfl, rfl, p, rfl⟩
    · cases h
  | ok fs =>
    right
    obtain ⟨hu, hn⟩ := layoutHtml_ok hl
    obtain ⟨d2, h2, h3⟩ := perform_valid hd (page_valid size fs hu (hasNulAll_textOk fs [] hn))
    rw [hl] at h
    simp only [Trace.after, outcome] at h
    have hp : (paintPage size fs).panic = none := by rw [page_own size fs hu]
    rw [hp, h3] at h
    cases h
    exact ⟨rfl, fs, rfl, h2⟩

/-- **C59, painting never fails**: a page that could be laid out is drawn completely, and no
error is reported. -/
theorem C59_drawn (X : Externals) {text css : ByteArray} {html sheet : Text}
    (ht : X.Html text html) (hc : Decodes css sheet) (n : Nat) {d : RDev} {gs : List Grob}
    (hd : d.Holds gs) (size : PVec2 Length) (fs : List Fragment)
    (h : X.layoutHtml n html sheet size = .ok fs) :
    ∃ d', X.testRenderer n d (some text) (some css) size = .ok (d', false) ∧
      d'.Holds (gs ++ (paintPage size fs).calls.filterMap (·.grob d.y0)) := by
  rw [testRenderer_eq X ht hc]
  obtain ⟨hu, hn⟩ := layoutHtml_ok h
  have hv := page_valid size fs hu (hasNulAll_textOk fs [] hn)
  obtain ⟨d2, h2, h3⟩ := perform_valid hd hv
  obtain ⟨d3, h4, h5, _⟩ := RDev.execAll_holds _ d gs hd hv
  rw [h2] at h4
  cases h4
  refine ⟨d2, ?_, h5⟩
  have hp : (paintPage size fs).panic = none := by rw [page_own size fs hu]
  simp only [Externals.renderHtml, h, Trace.after, outcome, hp, h3]

/-- **C59 as stated**: if parsing, styling or layout fails, for any reason, then control
returns, and nothing has been drawn.  A run that ends does so for all sufficiently large
amounts of fuel. -/
def C59_full : Prop :=
  ∀ (X : Externals) (text css : ByteArray) (html sheet : Text), X.Html text html →
    Decodes css sheet → ∀ (size : PVec2 Length) (N : Nat) (p : Panic), p ≠ .outOfFuel →
    (∀ n, N ≤ n → X.layoutHtml n html sheet size = .error p) →
    ∀ d : RDev, ∃ reported, ∀ n, N ≤ n →
      X.testRenderer n d (some text) (some css) size = .ok (d, reported)

/-- the failures that unwind the stack of the Rust code: all but the end of the process, an
endless loop, and errors of the C code -/
inductive Unwinds : Panic → Prop
  | interiorNul : Unwinds .interiorNul
  | unimplemented : Unwinds .unimplemented
  | unreachable : Unwinds .unreachable
  | assertion : Unwinds .assertion
  | panicked : Unwinds .panicked
  | indexBounds : Unwinds .indexBounds
  | borrow : Unwinds .borrow

theorem caught_iff (p : Panic) : p.caught = true ↔ Unwinds p := by
  constructor
  · intro h
    cases p <;> first | constructor | exact absurd h (by decide)
  · intro h
    cases h <;> rfl

/-- **C59, what holds**: Rust panics are contained, the error is reported, and the device is
as before.  Other failures are not contained (`C59_not_contained`). -/
theorem C59_contained_partial (X : Externals) {text css : ByteArray} {html sheet : Text}
    (ht : X.Html text html) (hc : Decodes css sheet) (n : Nat) (d : RDev) (size : PVec2 Length)
    (p : Panic) (hp : Unwinds p) (h : X.layoutHtml n html sheet size = .error p) :
    X.testRenderer n d (some text) (some css) size = .ok (d, true) := by
  rw [testRenderer_eq X ht hc]
  simp only [Externals.renderHtml, h, Trace.after, outcome, RDev.perform, (caught_iff p).2 hp, if_true]

/-- **C59, the other failures**: control does not return normally. -/
theorem C59_not_contained (X : Externals) {text css : ByteArray} {html sheet : Text}
    (ht : X.Html text html) (hc : Decodes css sheet) (n : Nat) (d : RDev) (size : PVec2 Length)
    (p : Panic) (hp : ¬ Unwinds p) (h : X.layoutHtml n html sheet size = .error p) :
    X.testRenderer n d (some text) (some css) size = .error p := by
  rw [testRenderer_eq X ht hc]
  simp only [Externals.renderHtml, h, Trace.after, outcome, RDev.perform]
  rw [if_neg (mt (caught_iff p).1 hp)]

example : Unwinds .panicked ∧ ¬ Unwinds .abort := ⟨.panicked, nofun⟩

/-! ## Fuel -/

theorem layoutHtml_below (X : Externals) {n m : Nat} (hm : n ≤ m) (html css : Text)
    (size : PVec2 Length) : Below (X.layoutHtml n html css size) (X.layoutHtml m html css size) := by
  unfold Externals.layoutHtml
  refine .bind (.refl _) fun d => ?_
  unfold Externals.layoutDoc
  refine .bind (.refl _) fun a => ?_
  exact .bind (boxTree_below hm) fun r => .refl _

/-- The amount of fuel does not matter: a rendering that returns does so with the same
device and report for every larger amount. -/
theorem C59_fuel (X : Externals) {text css : ByteArray} {html sheet : Text}
    (ht : X.Html text html) (hc : Decodes css sheet) {n m : Nat} (hm : n ≤ m) (d : RDev)
    (size : PVec2 Length) (r : RDev × Bool)
    (h : X.testRenderer n d (some text) (some css) size = .ok r) :
    X.testRenderer m d (some text) (some css) size = .ok r := by
  rw [testRenderer_eq X ht hc] at h ⊢
  rcases layoutHtml_below X hm html sheet size with hb | hb
  · simp [Externals.renderHtml, hb, Trace.after, outcome, RDev.perform, Panic.caught] at h
  · unfold Externals.renderHtml at h ⊢
    rw [← hb]
    exact h

/-! ## Input that is not UTF-8 -/

/-- **C59** a text that is not UTF-8 is treated as the empty text (`hm`: empty markdown is an
empty page) … -/
theorem C59_invalid_text (X : Externals) (hm : X.markdown [] = .ok []) {text css : ByteArray}
    (h : NotUtf8 text) (n : Nat) (d : RDev) (size : PVec2 Length) :
    X.testRenderer n d (some text) (some css) size = X.testRenderer n d (some ⟨#[]⟩) (some css) size := by
  have hc : ∃ sheet, Decodes css sheet := by
    by_cases hu : ∃ u : Text, css = u.utf8Encode
    · obtain ⟨u, hu⟩ := hu; exact ⟨u, .inl hu⟩
    · exact ⟨[], .inr ⟨rfl, hu⟩⟩
  obtain ⟨sheet, hc⟩ := hc
  rw [testRenderer_eq X (.inr ⟨h, rfl⟩) hc,
    testRenderer_eq X (html := []) (.inl ⟨[], by simp; rfl, hm⟩) hc]

/-- **C59** … and so is a style sheet. -/
theorem C59_invalid_css (X : Externals) {text : Option ByteArray} {css : ByteArray}
    (h : NotUtf8 css) (n : Nat) (d : RDev) (size : PVec2 Length) :
    X.testRenderer n d text (some css) size = X.testRenderer n d text (some ⟨#[]⟩) size := by
  have h1 : cstringToStr (some ⟨#[]⟩) = .ok (some []) :=
    cstringToStr_some []
  unfold Externals.testRenderer
  rw [cstringToStr_none h, h1]
  rfl

/-! ## The R function -/

/-- **C59, for R**: if parsing, styling or layout panics, R receives an empty list without
extent … -/
theorem C59_nothing_drawn_partial (X : Externals) {text css : ByteArray} {html sheet : Text}
    (ht : X.Html text html) (hc : Decodes css sheet) (n : Nat) (width height : ℚ) (ts cs : List ByteArray)
    (p : Panic) (hp : Unwinds p)
    (h : X.layoutHtml n html sheet ⟨width * 96, height * 96⟩ = .error p) :
    X.renderMarkdown n (text :: ts) (css :: cs) width height = .ok ⟨[], none⟩ := by
  unfold Externals.renderMarkdown
  simp only [C59_contained_partial X ht hc n (RDev.new 0) _ p hp h, bind, Except.bind]
  rfl

/-- … otherwise, the grobs of the whole page in painting order … -/
theorem C59_returned (X : Externals) {text css : ByteArray} {html sheet : Text}
    (ht : X.Html text html) (hc : Decodes css sheet) (n : Nat) (width height : ℚ) (ts cs : List ByteArray)
    (fs : List Fragment) (h : X.layoutHtml n html sheet ⟨width * 96, height * 96⟩ = .ok fs) :
    ∃ r, X.renderMarkdown n (text :: ts) (css :: cs) width height = .ok r ∧
      r.grobs = ((paintPage ⟨width * 96, height * 96⟩ fs).calls.filterMap (·.grob 0)).map some := by
  obtain ⟨d, h1, h2⟩ := C59_drawn X ht hc n (RDev.new_holds 0) _ fs h
  have h3 := RDev.release_spec h2
  have h4 : X.renderMarkdown n (text :: ts) (css :: cs) width height = d.release := by
    unfold Externals.renderMarkdown
    simp only [h1, bind, Except.bind]
  exact ⟨_, h4.trans h3, by simp [RDev.new]⟩

/-- … and for an empty character vector, an empty list. -/
theorem C59_no_input (X : Externals) (n : Nat) (text css : List ByteArray) (width height : ℚ)
    (h : text = [] ∨ css = []) : X.renderMarkdown n text css width height = .ok ⟨[], none⟩ := by
  rcases h with rfl | rfl
  · rfl
  · cases text <;> rfl

/-! ## Failures that are not contained -/

/-- a rendering in which the parser makes the calls `ops`, whatever the text is, with the
style sheet and font of `pageContext` -/
def opsExternals (ops : List Doc.SinkOp) : Externals where
  engine := nameEngine
  markdown t := .ok t
  html _ := .ok ops
  css _ := []
  attr _ := []
  colors := ⟨fun _ => none, fun _ => none, fun _ _ => none⟩
  userAgent := nameSheet
  env := ⟨fun st => ⟨st.val .fontSize, 12, 4, 4, GCtx.new⟩, fun _ t => 10 * t.length⟩

/-- the calls of the parser for `a<em>b<p>c</p>d</em>` -/
def splitOps : List Doc.SinkOp :=
  [.createElement (htmlName "html") [], .append 1 (.node 2),
   .createElement (htmlName "body") [], .append 2 (.node 3),
   .append 3 (.text ['a']),
   .createElement (htmlName "em") [], .append 3 (.node 5),
   .append 5 (.text ['b']),
   .createElement (htmlName "p") [], .append 5 (.node 7),
   .append 7 (.text ['c']), .append 5 (.text ['d'])]

/-- the panic of a computation -/
def failure {α : Type} : Except Panic α → Option Panic
  | .error p => some p
  | .ok _ => none

theorem failure_some {α : Type} {e : Except Panic α} {p : Panic} (h : failure e = some p) :
    e = .error p := by
  cases e with
  | error q => simp only [failure, Option.some.injEq] at h; rw [h]
  | ok a => cases h

/-- **C59 is false**: for `a<em>b<p>c</p>d</em>` the process is aborted. -/
theorem C59_full_false : ¬ C59_full := by
  intro h
  have h0 : (opsExternals splitOps).layoutHtml 40 ['a'] [] ⟨100, 100⟩ = .error .abort :=
    failure_some (by decide +kernel)
  have hs : ∀ n, 40 ≤ n →
      (opsExternals splitOps).layoutHtml n ['a'] [] ⟨100, 100⟩ = .error .abort := by
    intro n hn
    rw [← (layoutHtml_below _ hn _ _ _).eq (by rw [h0]; simp), h0]
  obtain ⟨r, hr⟩ := h (opsExternals splitOps) ['a'].utf8Encode [].utf8Encode ['a'] []
    (.inl ⟨['a'], rfl, rfl⟩) (.inl rfl) ⟨100, 100⟩ 40 .abort (by simp) hs (RDev.new 0)
  have h2 := hr 40 (Nat.le_refl _)
  rw [testRenderer_eq (html := ['a']) (sheet := []) _ (.inl ⟨['a'], rfl, rfl⟩) (.inl rfl)] at h2
  simp [Externals.renderHtml, h0, Trace.after, outcome, RDev.perform, Panic.caught] at h2

/-- A panic of the markdown parser is not contained: it runs before `catch_unwind`. -/
theorem C59_markdown_escapes (X : Externals) (md : Text) (css : Option ByteArray) (p : Panic)
    (h : X.markdown md = .error p) (n : Nat) (d : RDev) (size : PVec2 Length) :
    X.testRenderer n d (some md.utf8Encode) css size = .error p := by
  unfold Externals.testRenderer
  rw [cstringToStr_some]
  simp only [bind, Except.bind, h]

/-! ## Examples -/

/-- the calls of the parser for `a<p>b</p>` -/
def plainOps : List Doc.SinkOp :=
  [.createElement (htmlName "html") [], .append 1 (.node 2),
   .createElement (htmlName "body") [], .append 2 (.node 3),
   .append 3 (.text ['a']),
   .createElement (htmlName "p") [], .append 3 (.node 5), .append 5 (.text ['b'])]

/-- the calls of the parser for a text with a NUL character; and a document with two roots -/
def nulOps : List Doc.SinkOp :=
  [.createElement (htmlName "html") [], .append 1 (.node 2),
   .createElement (htmlName "body") [], .append 2 (.node 3), .append 3 (.text ['a', '\x00'])]

def twoRoots : List Doc.SinkOp :=
  [.createElement (htmlName "html") [], .append 1 (.node 2),
   .createElement (htmlName "body") [], .append 1 (.node 3)]

/-- labels of the text that R receives -/
def labels (r : Except Panic Released) : Option (List String) :=
  match r with
  | .ok r => some (r.grobs.filterMap fun g => match g with
    | some (.text l ..) => some l
    | _ => none)
  | .error _ => none

example : labels ((opsExternals plainOps).renderMarkdown 40 [⟨#[0x61]⟩] [⟨#[]⟩] 1 1) =
    some ["a", "b"] := by decide +kernel

/-- invalid style sheet -/
example : labels ((opsExternals plainOps).renderMarkdown 40 [⟨#[0x61]⟩] [⟨#[0xff]⟩] 1 1) =
    some ["a", "b"] := by decide +kernel

/-- panic during layout -/
example : (opsExternals nulOps).renderMarkdown 40 [⟨#[0x61]⟩] [⟨#[]⟩] 1 1 = .ok ⟨[], none⟩ := by
  decide +kernel

/-- panic during box construction -/
example : (opsExternals twoRoots).renderMarkdown 40 [⟨#[0x61]⟩] [⟨#[]⟩] 1 1 = .ok ⟨[], none⟩ := by
  decide +kernel

example : NotUtf8 ⟨#[0xff]⟩ := by
  rintro ⟨u, hu⟩
  have h1 : String.fromUTF8? ⟨#[0xff]⟩ = none := by decide +kernel
  rw [hu, fromUTF8_some] at h1
  cases h1

end Sinab
