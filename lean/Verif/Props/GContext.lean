import Verif.Lemmas.Color
import Mathlib.Data.List.Basic
import Mathlib.Data.List.Perm.Basic
import Mathlib.Tactic.Ring

/-! # C04 Font face, C05 sharing of graphics contexts -/

namespace Sinab

/-! ## C04 -/

/-- A setter call of the graphics context. -/
inductive Setter where
  | color (c : RGBA) | fill (c : RGBA) | family (n : String)
  | style (s : FontStyle) | weight (w : FontWeight) | size (l : Length)
  | linestyle (s : LineStyle) | linewidth (l : Length)

def Setter.apply (gc : GCtx) : Setter → Except Panic GCtx
  | .color c => gc.setColor c
  | .fill c => gc.setFill c
  | .family n => gc.setFontfamily n
  | .style s => .ok (gc.setFontstyle s)
  | .weight w => .ok (gc.setFontweight w)
  | .size l => .ok (gc.setFontsize l)
  | .linestyle s => .ok (gc.setLinestyle s)
  | .linewidth l => .ok (gc.setLinewidth l)

def Setter.applyAll (gc : GCtx) : List Setter → Except Panic GCtx
  | [] => .ok gc
  | s :: ss => do
    let gc ← s.apply gc
    applyAll gc ss

/-- a setting that asks for a slanted face -/
def Setter.slants : Setter → Bool
  | .style .italic | .style .oblique => true
  | _ => false

/-- a setting that asks for a bold face -/
def Setter.bolds : Setter → Bool
  | .weight .bold => true
  | _ => false

/-- R's numbering of font faces: 1 plain, 2 bold, 3 italic, 4 bold italic. -/
def faceNumber (slanted bold : Bool) : Int :=
  match slanted, bold with
  | false, false => 1
  | false, true => 2
  | true, false => 3
  | true, true => 4

theorem setFontfamily_face {gc gc' : GCtx} {n : String} (h : gc.setFontfamily n = .ok gc') :
    gc' = { gc with fontfamily := n } := by
  unfold GCtx.setFontfamily cstring strcpy at h
  split at h
  · simp [bind, Except.bind] at h
  · simp only [bind, Except.bind, pure, Except.pure] at h
    by_cases hs : n.utf8ByteSize + 1 ≤ stringBufferSize
    · rw [if_pos hs] at h; simpa using h.symm
    · rw [if_neg hs] at h; simp at h

theorem Setter.apply_face (gc gc' : GCtx) (s : Setter) (i b : Bool)
    (hf : gc.fontface = faceNumber i b) (h : s.apply gc = .ok gc') :
    gc'.fontface = faceNumber (i || s.slants) (b || s.bolds) := by
  cases s with
  | color c => simp [Setter.apply, GCtx.setColor_ok] at h; subst h; simp [slants, bolds, hf]
  | fill c => simp [Setter.apply, GCtx.setFill_ok] at h; subst h; simp [slants, bolds, hf]
  | family n =>
    have := setFontfamily_face h; subst this; simp [slants, bolds, hf]
  | style s =>
    simp [Setter.apply] at h; subst h
    cases s <;> cases i <;> cases b <;>
      simp [GCtx.setFontstyle, GCtx.getFontface, GCtx.setFontface, hf, faceNumber, slants, bolds]
  | weight w =>
    simp [Setter.apply] at h; subst h
    cases w <;> cases i <;> cases b <;>
      simp [GCtx.setFontweight, GCtx.getFontface, GCtx.setFontface, hf, faceNumber, slants, bolds]
  | size l => simp [Setter.apply] at h; subst h; simp [slants, bolds, GCtx.setFontsize, hf]
  | linestyle l => simp [Setter.apply] at h; subst h; simp [slants, bolds, GCtx.setLinestyle, hf]
  | linewidth l => simp [Setter.apply] at h; subst h; simp [slants, bolds, GCtx.setLinewidth, hf]

theorem Setter.applyAll_face (ss : List Setter) : ∀ (gc gc' : GCtx) (i b : Bool),
    gc.fontface = faceNumber i b → applyAll gc ss = .ok gc' →
    gc'.fontface = faceNumber (i || ss.any slants) (b || ss.any bolds) := by
  induction ss with
  | nil => intro gc gc' i b hf h; simp [applyAll] at h; subst h; simp [hf]
  | cons s ss ih =>
    intro gc gc' i b hf h
    simp only [applyAll, bind, Except.bind] at h
    split at h
    · exact absurd h (by simp)
    · rename_i gc1 h1
      have := ih gc1 gc' _ _ (Setter.apply_face gc gc1 s i b hf h1) h
      simp [this, Bool.or_assoc]

/-- **C04** After any sequence of settings of a fresh graphics context the face
given to R is slanted exactly if italic or oblique was asked for, and bold
exactly if bold was asked for. -/
theorem C04_fontface (ss : List Setter) (gc : GCtx)
    (h : Setter.applyAll GCtx.new ss = .ok gc) :
    (gparOf gc).fontface = faceNumber (ss.any Setter.slants) (ss.any Setter.bolds) := by
  have := Setter.applyAll_face ss GCtx.new gc false false rfl h
  simpa [gparOf] using this

/-- **C04** the order of the settings does not matter for the face. -/
theorem C04_fontface_order (ss ts : List Setter) (hp : ss.Perm ts) (gc gc' : GCtx)
    (h : Setter.applyAll GCtx.new ss = .ok gc) (h' : Setter.applyAll GCtx.new ts = .ok gc') :
    (gparOf gc).fontface = (gparOf gc').fontface := by
  rw [C04_fontface ss gc h, C04_fontface ts gc' h', hp.any_eq, hp.any_eq]

/-- **C04** the context of a font has the family, face and size of its style. -/
theorem C04_font (name : String) (s : FontStyle) (w : FontWeight) (size : Length) (gc : GCtx)
    (h : fontGCtx name s w size = .ok gc) :
    (gparOf gc).fontfamily = name ∧
    (gparOf gc).fontface = faceNumber (s ≠ .normal) (w = .bold) ∧
    (gparOf gc).fontsize * 96 = size * 72 := by
  simp only [fontGCtx, bind, Except.bind, pure, Except.pure] at h
  split at h
  · exact absurd h (by simp)
  · rename_i g hg
    have := setFontfamily_face hg; subst this
    simp at h; subst h
    refine ⟨?_, ?_, ?_⟩
    · cases s <;> cases w <;> rfl
    · cases s <;> cases w <;> rfl
    · simp [gparOf, GCtx.setFontsize]

example : ∃ gc, Setter.applyAll GCtx.new
    [.weight .bold, .color ⟨1, 2, 3, 4⟩, .style .oblique, .size 16] = .ok gc ∧
    (gparOf gc).fontface = 4 := by
  refine ⟨_, rfl, ?_⟩
  decide +kernel

example : ∃ gc, fontGCtx "serif" .italic .bold 16 = .ok gc := ⟨_, rfl⟩

/-! ## C05 -/

/-- Specification of handles: every live handle has a value of its own. -/
def HOp.spec {V : Type} (m : Nat → Option V) : HOp V → Option (Nat → Option V)
  | .new h v => if m h = none then some (Function.update m h (some v)) else none
  | .clone src dst | .newFrom src dst =>
    match m src, m dst with
    | some v, none => some (Function.update m dst (some v))
    | _, _ => none
  | .drop h => if m h = none then none else some (Function.update m h none)
  | .modify h f =>
    match m h with
    | some v => some (Function.update m h (some (f v)))
    | none => none

def HOp.specAll {V : Type} (m : Nat → Option V) : List (HOp V) → Option (Nat → Option V)
  | [] => some m
  | op :: ops => (op.spec m).bind fun m' => specAll m' ops


namespace RcHeap
variable {V : Type}

/-- Simulation relation between the heap and the independent values. -/
structure Sim (s : RcHeap V) (m : Nat → Option V) : Prop where
  nodup : (s.env.map Prod.fst).Nodup
  dom : ∀ h, m h = none ↔ h ∉ s.env.map Prod.fst
  val : ∀ h a, (h, a) ∈ s.env → ∃ n v, s.cells a = some (n, v) ∧ m h = some v
  cnt : ∀ a n v, s.cells a = some (n, v) →
    a < s.next ∧ n = (s.env.map Prod.snd).count a ∧ 0 < n

theorem lookup_eq (l : List (Nat × Nat)) (hn : (l.map Prod.fst).Nodup) (h a : Nat) :
    l.lookup h = some a ↔ (h, a) ∈ l := by
  induction l with
  | nil => simp
  | cons p l ih =>
    obtain ⟨k, b⟩ := p
    simp only [List.map_cons, List.nodup_cons] at hn
    by_cases hk : h = k
    · subst hk
      simp only [List.lookup_cons, beq_self_eq_true, List.mem_cons, Prod.mk.injEq, true_and]
      constructor
      · intro e; left; simpa using e.symm
      · rintro (e | e)
        · simp [e]
        · exact absurd (List.mem_map_of_mem (f := Prod.fst) e) hn.1
    · have : (h == k) = false := by simpa using hk
      simp only [List.lookup_cons, this, List.mem_cons, Prod.mk.injEq, hk, false_and, false_or]
      exact ih hn.2

theorem mem_env_of_some {s : RcHeap V} {m : Nat → Option V} (hs : Sim s m) {h : Nat} {v : V}
    (hm : m h = some v) : ∃ a n, (h, a) ∈ s.env ∧ s.addr h = .ok a ∧
      s.cells a = some (n, v) ∧ s.cell a = .ok (n, v) := by
  have h1 : h ∈ s.env.map Prod.fst := by
    by_contra hc
    rw [← hs.dom] at hc
    simp [hc] at hm
  obtain ⟨⟨h', a⟩, hmem, heq⟩ := List.mem_map.mp h1
  simp only at heq
  subst heq
  obtain ⟨n, w, hc, hw⟩ := hs.val _ _ hmem
  rw [hm] at hw
  simp only [Option.some.injEq] at hw
  subst hw
  refine ⟨a, n, hmem, ?_, hc, ?_⟩
  · simp [addr, (lookup_eq _ hs.nodup _ _).mpr hmem]
  · simp [cell, hc]

theorem count_filter_ne (l : List (Nat × Nat)) (hn : (l.map Prod.fst).Nodup) (h a b : Nat)
    (hmem : (h, a) ∈ l) :
    ((l.filter (fun p => p.1 ≠ h)).map Prod.snd).count b + (if a = b then 1 else 0)
      = (l.map Prod.snd).count b := by
  induction l with
  | nil => simp at hmem
  | cons p l ih =>
    obtain ⟨k, c⟩ := p
    simp only [List.map_cons, List.nodup_cons] at hn
    by_cases hk : k = h
    · subst hk
      have hca : c = a := by
        simp only [List.mem_cons, Prod.mk.injEq, true_and] at hmem
        rcases hmem with e | e
        · exact e.symm
        · exact absurd (List.mem_map_of_mem (f := Prod.fst) e) hn.1
      subst hca
      have hf : l.filter (fun p => decide (p.1 ≠ k)) = l := by
        apply List.filter_eq_self.mpr
        rintro ⟨k', c'⟩ hm
        simp only [ne_eq, decide_not, Bool.not_eq_eq_eq_not, Bool.not_true, decide_eq_false_iff_not]
        rintro rfl
        exact hn.1 (List.mem_map_of_mem (f := Prod.fst) hm)
      rw [List.filter_cons_of_neg (by simp), hf, List.map_cons, List.count_cons]
      simp [beq_iff_eq]
    · have hmem' : (h, a) ∈ l := by
        simp only [List.mem_cons, Prod.mk.injEq] at hmem
        rcases hmem with e | e
        · exact absurd e.1.symm hk
        · exact e
      rw [List.filter_cons_of_pos (by simpa using hk), List.map_cons, List.map_cons,
        List.count_cons, List.count_cons]
      have := ih hn.2 hmem'
      omega

theorem count_pos_of_mem {l : List (Nat × Nat)} {h a : Nat} (hm : (h, a) ∈ l) :
    0 < (l.map Prod.snd).count a :=
  List.count_pos_iff.mpr (List.mem_map_of_mem (f := Prod.snd) hm)

theorem unbind_nodup {s : RcHeap V} (hn : (s.env.map Prod.fst).Nodup) (h : Nat) :
    ((s.unbind h).env.map Prod.fst).Nodup := by
  unfold unbind
  exact (List.Sublist.map Prod.fst List.filter_sublist).nodup hn

theorem not_mem_unbind (s : RcHeap V) (h : Nat) : h ∉ (s.unbind h).env.map Prod.fst := by
  unfold unbind
  simp

theorem mem_keys_unbind (s : RcHeap V) (h k : Nat) :
    k ∈ (s.unbind h).env.map Prod.fst ↔ k ∈ s.env.map Prod.fst ∧ k ≠ h := by
  unfold unbind
  simp only [List.mem_map, List.mem_filter]
  constructor
  · rintro ⟨p, ⟨hp, hne⟩, rfl⟩; exact ⟨⟨p, hp, rfl⟩, by simpa using hne⟩
  · rintro ⟨⟨p, hp, rfl⟩, hne⟩; exact ⟨p, ⟨hp, by simpa using hne⟩, rfl⟩

theorem mem_unbind (s : RcHeap V) (h k a : Nat) :
    (k, a) ∈ (s.unbind h).env ↔ (k, a) ∈ s.env ∧ k ≠ h := by
  unfold unbind; simp [List.mem_filter]

/-- allocating and binding a new cell, the common part of `new` and `newFrom` -/
theorem sim_alloc_bind {s : RcHeap V} {m : Nat → Option V} (hs : Sim s m) (h : Nat) (v : V)
    (hm : m h = none) :
    Sim ((s.alloc v).1.bind h (s.alloc v).2) (Function.update m h (some v)) := by
  have hfresh : s.cells s.next = none := by
    cases hc : s.cells s.next with
    | none => rfl
    | some c => obtain ⟨n, w⟩ := c; exact absurd (hs.cnt _ _ _ hc).1 (by omega)
  have hkey := (hs.dom h).mp hm
  have hne : ∀ k a, (k, a) ∈ s.env → a ≠ s.next := by
    intro k a hmem
    obtain ⟨n, w, hc, _⟩ := hs.val _ _ hmem
    have := (hs.cnt _ _ _ hc).1
    omega
  refine ⟨?_, ?_, ?_, ?_⟩
  · simpa [alloc, RcHeap.bind, setCell] using ⟨by simpa using hkey, hs.nodup⟩
  · intro k
    by_cases hk : k = h
    · subst hk; simp [alloc, RcHeap.bind, setCell]
    · rw [Function.update_of_ne hk, hs.dom]
      simp [alloc, RcHeap.bind, setCell, hk]
  · intro k a hmem
    simp only [alloc, RcHeap.bind, setCell, List.mem_cons, Prod.mk.injEq] at hmem ⊢
    rcases hmem with ⟨rfl, rfl⟩ | hmem
    · exact ⟨1, v, by simp, by simp⟩
    · obtain ⟨n, w, hc, hw⟩ := hs.val _ _ hmem
      refine ⟨n, w, ?_, ?_⟩
      · simp [hne _ _ hmem, hc]
      · rw [Function.update_of_ne]
        · exact hw
        · rintro rfl
          exact hkey (List.mem_map_of_mem (f := Prod.fst) hmem)
  · intro a n w hc
    simp only [alloc, RcHeap.bind, setCell] at hc ⊢
    by_cases ha : a = s.next
    · subst ha
      simp only [if_true, Option.some.injEq, Prod.mk.injEq] at hc
      obtain ⟨rfl, rfl⟩ := hc
      refine ⟨by omega, ?_, by omega⟩
      rw [List.map_cons, List.count_cons_self, List.count_eq_zero_of_not_mem]
      intro hmem
      obtain ⟨⟨k, b⟩, hm1, rfl⟩ := List.mem_map.mp hmem
      exact hne _ _ hm1 rfl
    · simp only [ha, if_false] at hc
      obtain ⟨h1, h2, h3⟩ := hs.cnt _ _ _ hc
      refine ⟨by omega, ?_, h3⟩
      rw [List.map_cons, List.count_cons_of_ne (by simpa using fun e => ha e.symm)]
      exact h2

/-- Every operation that is legal for independent values succeeds on the heap
and preserves the simulation. -/
theorem sim_step {s : RcHeap V} {m m' : Nat → Option V} (hs : Sim s m) (op : HOp V)
    (hop : op.spec m = some m') : ∃ s', s.step op = .ok s' ∧ Sim s' m' := by
  cases op with
  | new h v =>
    simp only [HOp.spec] at hop
    split at hop
    · rename_i hm
      simp only [Option.some.injEq] at hop
      subst hop
      exact ⟨_, rfl, sim_alloc_bind hs h v hm⟩
    · simp at hop
  | newFrom src dst =>
    simp only [HOp.spec] at hop
    split at hop
    · rename_i v hsrc hdst
      simp only [Option.some.injEq] at hop
      subst hop
      obtain ⟨a, n, hmem, haddr, hcells, hcell⟩ := mem_env_of_some hs hsrc
      refine ⟨_, ?_, sim_alloc_bind hs dst v hdst⟩
      simp [step, haddr, hcell, Bind.bind, Except.bind, pure, Except.pure]
    · simp at hop
  | clone src dst =>
    simp only [HOp.spec] at hop
    split at hop
    · rename_i v hsrc hdst
      simp only [Option.some.injEq] at hop
      subst hop
      obtain ⟨a, n, hmem, haddr, hcells, hcell⟩ := mem_env_of_some hs hsrc
      refine ⟨(s.setCell a (some (n + 1, v))).bind dst a, ?_, ?_⟩
      · simp [step, haddr, hcell, Bind.bind, Except.bind, pure, Except.pure]
      have hkey := (hs.dom dst).mp hdst
      refine ⟨?_, ?_, ?_, ?_⟩
      · simpa [RcHeap.bind, setCell] using ⟨by simpa using hkey, hs.nodup⟩
      · intro k
        by_cases hk : k = dst
        · subst hk; simp [RcHeap.bind, setCell]
        · rw [Function.update_of_ne hk, hs.dom]
          simp [RcHeap.bind, setCell, hk]
      · intro k b hm
        simp only [RcHeap.bind, setCell, List.mem_cons, Prod.mk.injEq] at hm ⊢
        rcases hm with ⟨rfl, rfl⟩ | hm
        · exact ⟨n + 1, v, by simp, by simp⟩
        · obtain ⟨n', w, hc, hw⟩ := hs.val _ _ hm
          have hkd : k ≠ dst := by
            rintro rfl
            exact hkey (List.mem_map_of_mem (f := Prod.fst) hm)
          by_cases hb : b = a
          · subst hb
            rw [hcells] at hc
            simp only [Option.some.injEq, Prod.mk.injEq] at hc
            obtain ⟨rfl, rfl⟩ := hc
            exact ⟨n + 1, v, by simp, by rw [Function.update_of_ne hkd]; exact hw⟩
          · exact ⟨n', w, by simp [hb, hc], by rw [Function.update_of_ne hkd]; exact hw⟩
      · intro b n' w hc
        simp only [RcHeap.bind, setCell] at hc ⊢
        by_cases hb : b = a
        · subst hb
          simp only [if_true, Option.some.injEq, Prod.mk.injEq] at hc
          obtain ⟨rfl, rfl⟩ := hc
          obtain ⟨h1, h2, h3⟩ := hs.cnt _ _ _ hcells
          refine ⟨h1, ?_, by omega⟩
          rw [List.map_cons, List.count_cons_self, ← h2]
        · simp only [hb, if_false] at hc
          obtain ⟨h1, h2, h3⟩ := hs.cnt _ _ _ hc
          refine ⟨h1, ?_, h3⟩
          rw [List.map_cons, List.count_cons_of_ne (by simpa using fun e => hb e.symm)]
          exact h2
    · simp at hop
  | drop h =>
    simp only [HOp.spec] at hop
    split at hop
    · simp at hop
    · rename_i hm
      simp only [Option.some.injEq] at hop
      subst hop
      obtain ⟨v, hv⟩ := Option.ne_none_iff_exists'.mp hm
      obtain ⟨a, n, hmem, haddr, hcells, hcell⟩ := mem_env_of_some hs hv
      obtain ⟨ha, hn, hpos⟩ := hs.cnt _ _ _ hcells
      have hcount := fun b => count_filter_ne s.env hs.nodup h a b hmem
      have hcell' : (s.unbind h).cell a = .ok (n, v) := by
        simp [cell, unbind, hcells]
      by_cases h1 : n ≤ 1
      · refine ⟨(s.unbind h).setCell a none, ?_, ?_⟩
        · simp [step, haddr, Bind.bind, Except.bind, release, hcell', h1, pure, Except.pure]
        refine ⟨?_, ?_, ?_, ?_⟩
        · exact unbind_nodup hs.nodup h
        · intro k
          show _ ↔ k ∉ (s.unbind h).env.map Prod.fst
          rw [mem_keys_unbind]
          by_cases hk : k = h
          · subst hk; simp
          · rw [Function.update_of_ne hk, hs.dom]; simp [hk]
        · intro k b hm
          have hm' := (mem_unbind s h k b).mp hm
          obtain ⟨n', w, hc, hw⟩ := hs.val _ _ hm'.1
          have hba : b ≠ a := by
            rintro rfl
            have := hcount b
            have hp : 0 < ((s.env.filter (fun p => p.1 ≠ h)).map Prod.snd).count b :=
              count_pos_of_mem (h := k) (by simpa using hm')
            simp only [if_true] at this
            omega
          refine ⟨n', w, ?_, ?_⟩
          · simp [setCell, hba, unbind, hc]
          · rw [Function.update_of_ne hm'.2]; exact hw
        · intro b n' w hc
          simp only [setCell, unbind] at hc ⊢
          by_cases hb : b = a
          · simp [hb] at hc
          · simp only [hb, if_false] at hc
            obtain ⟨h1', h2, h3⟩ := hs.cnt _ _ _ hc
            refine ⟨h1', ?_, h3⟩
            have := hcount b
            rw [if_neg (fun e => hb e.symm)] at this
            rw [h2]; simpa using this.symm
      · refine ⟨(s.unbind h).setCell a (some (n - 1, v)), ?_, ?_⟩
        · simp [step, haddr, Bind.bind, Except.bind, release, hcell', h1, pure, Except.pure]
        refine ⟨?_, ?_, ?_, ?_⟩
        · exact unbind_nodup hs.nodup h
        · intro k
          show _ ↔ k ∉ (s.unbind h).env.map Prod.fst
          rw [mem_keys_unbind]
          by_cases hk : k = h
          · subst hk; simp
          · rw [Function.update_of_ne hk, hs.dom]; simp [hk]
        · intro k b hm
          have hm' := (mem_unbind s h k b).mp hm
          obtain ⟨n', w, hc, hw⟩ := hs.val _ _ hm'.1
          by_cases hb : b = a
          · subst hb
            rw [hcells] at hc
            simp only [Option.some.injEq, Prod.mk.injEq] at hc
            obtain ⟨rfl, rfl⟩ := hc
            refine ⟨n - 1, v, by simp [setCell], ?_⟩
            rw [Function.update_of_ne hm'.2]; exact hw
          · refine ⟨n', w, ?_, ?_⟩
            · simp [setCell, hb, unbind, hc]
            · rw [Function.update_of_ne hm'.2]; exact hw
        · intro b n' w hc
          simp only [setCell, unbind] at hc ⊢
          by_cases hb : b = a
          · subst hb
            simp only [if_true, Option.some.injEq, Prod.mk.injEq] at hc
            obtain ⟨rfl, rfl⟩ := hc
            refine ⟨ha, ?_, by omega⟩
            have := hcount b
            simp only [if_true] at this
            simp only [ne_eq, decide_not] at this ⊢
            omega
          · simp only [hb, if_false] at hc
            obtain ⟨h1', h2, h3⟩ := hs.cnt _ _ _ hc
            refine ⟨h1', ?_, h3⟩
            have := hcount b
            rw [if_neg (fun e => hb e.symm)] at this
            rw [h2]; simpa using this.symm
  | modify h f =>
    simp only [HOp.spec] at hop
    split at hop
    · rename_i v hv
      simp only [Option.some.injEq] at hop
      subst hop
      obtain ⟨a, n, hmem, haddr, hcells, hcell⟩ := mem_env_of_some hs hv
      obtain ⟨ha, hn, hpos⟩ := hs.cnt _ _ _ hcells
      have hcount := fun b => count_filter_ne s.env hs.nodup h a b hmem
      by_cases h1 : n = 1
      · subst h1
        refine ⟨s.setCell a (some (1, f v)), ?_, ?_⟩
        · simp [step, haddr, hcell, Bind.bind, Except.bind, pure, Except.pure]
        have only : ∀ k, (k, a) ∈ s.env → k = h := by
          intro k hk
          by_contra hne
          have hp : 0 < ((s.env.filter (fun p => p.1 ≠ h)).map Prod.snd).count a :=
            count_pos_of_mem (h := k) (by simpa using ⟨hk, hne⟩)
          have := hcount a
          simp only [if_true] at this
          omega
        refine ⟨hs.nodup, ?_, ?_, ?_⟩
        · intro k
          by_cases hk : k = h
          · subst hk
            have : k ∈ s.env.map Prod.fst := List.mem_map_of_mem (f := Prod.fst) hmem
            simpa [setCell] using ⟨a, hmem⟩
          · rw [Function.update_of_ne hk, hs.dom]; rfl
        · intro k b hm
          by_cases hb : b = a
          · subst hb
            have := only k hm
            subst this
            exact ⟨1, f v, by simp [setCell], by simp⟩
          · obtain ⟨n', w, hc, hw⟩ := hs.val k b hm
            have hkh : k ≠ h := by
              rintro rfl
              have e1 := (lookup_eq _ hs.nodup _ _).mpr hm
              have e2 := (lookup_eq _ hs.nodup _ _).mpr hmem
              rw [e1] at e2
              exact hb (by simpa using e2)
            exact ⟨n', w, by simp [setCell, hb, hc], by rw [Function.update_of_ne hkh]; exact hw⟩
        · intro b n' w hc
          simp only [setCell] at hc ⊢
          by_cases hb : b = a
          · subst hb
            simp only [if_true, Option.some.injEq, Prod.mk.injEq] at hc
            obtain ⟨rfl, rfl⟩ := hc
            exact ⟨ha, hn, hpos⟩
          · simp only [hb, if_false] at hc
            exact hs.cnt _ _ _ hc
      · have han : a ≠ s.next := by omega
        have hne : ∀ k b, (k, b) ∈ s.env → b ≠ s.next := by
          intro k b hm
          obtain ⟨n', w, hc, _⟩ := hs.val _ _ hm
          have := (hs.cnt _ _ _ hc).1
          omega
        have hcell' : (s.alloc v).1.cell a = .ok (n, v) := by
          simp [cell, alloc, setCell, han, hcells]
        have hn1 : ¬ n ≤ 1 := by omega
        refine ⟨((((s.alloc v).1.setCell a (some (n - 1, v))).unbind h).bind h s.next).setCell s.next
          (some (1, f v)), ?_, ?_⟩
        · simp only [step, haddr, hcell, Bind.bind, Except.bind, h1, if_false, release, hcell', hn1,
            pure, Except.pure]
          rfl
        have henv : (((((s.alloc v).1.setCell a (some (n - 1, v))).unbind h).bind h s.next).setCell s.next
          (some (1, f v))).env = (h, s.next) :: (s.unbind h).env := rfl
        have hcells' : ∀ b, (((((s.alloc v).1.setCell a (some (n - 1, v))).unbind h).bind h s.next).setCell s.next
          (some (1, f v))).cells b = if b = s.next then some (1, f v)
            else if b = a then some (n - 1, v) else s.cells b := by
          intro b
          simp only [setCell, RcHeap.bind, unbind, alloc]
          by_cases hb : b = s.next <;> by_cases hb' : b = a <;> simp [hb, hb']
        refine ⟨?_, ?_, ?_, ?_⟩
        · rw [henv, List.map_cons, List.nodup_cons]
          exact ⟨not_mem_unbind s h, unbind_nodup hs.nodup h⟩
        · intro k
          rw [henv, List.map_cons, List.mem_cons, mem_keys_unbind]
          by_cases hk : k = h
          · subst hk; simp
          · rw [Function.update_of_ne hk, hs.dom]; simp [hk]
        · intro k b hm
          rw [henv, List.mem_cons, mem_unbind] at hm
          rw [hcells']
          rcases hm with e | ⟨hm, hk⟩
          · simp only [Prod.mk.injEq] at e
            obtain ⟨rfl, rfl⟩ := e
            exact ⟨1, f v, by simp, by simp⟩
          · obtain ⟨n', w, hc, hw⟩ := hs.val k b hm
            rw [if_neg (hne _ _ hm), Function.update_of_ne hk]
            by_cases hb : b = a
            · subst hb
              rw [hcells] at hc
              simp only [Option.some.injEq, Prod.mk.injEq] at hc
              obtain ⟨rfl, rfl⟩ := hc
              exact ⟨n - 1, v, by simp, hw⟩
            · exact ⟨n', w, by simp [hb, hc], hw⟩
        · intro b n' w hc
          rw [hcells'] at hc
          rw [henv, List.map_cons]
          show b < s.next + 1 ∧ _
          by_cases hb : b = s.next
          · subst hb
            simp only [if_true, Option.some.injEq, Prod.mk.injEq] at hc
            obtain ⟨rfl, rfl⟩ := hc
            refine ⟨by omega, ?_, by omega⟩
            rw [List.count_cons_self, List.count_eq_zero_of_not_mem]
            intro hmem'
            obtain ⟨⟨k, b⟩, hm1, hb⟩ := List.mem_map.mp hmem'
            simp only at hb
            subst hb
            exact hne _ _ ((mem_unbind s h k _).mp hm1).1 rfl
          · rw [if_neg hb] at hc
            rw [List.count_cons_of_ne (by simpa using fun e => hb e.symm)]
            have hcb := hcount b
            have hcb' : ((s.unbind h).env.map Prod.snd).count b + (if a = b then 1 else 0)
              = (s.env.map Prod.snd).count b := by simpa [unbind] using hcb
            by_cases hb' : b = a
            · subst hb'
              simp only [if_true, Option.some.injEq, Prod.mk.injEq] at hc
              obtain ⟨rfl, rfl⟩ := hc
              simp only [if_true] at hcb'
              refine ⟨by omega, by omega, by omega⟩
            · rw [if_neg hb'] at hc
              obtain ⟨h1', h2, h3⟩ := hs.cnt _ _ _ hc
              rw [if_neg (fun e => hb' e.symm)] at hcb'
              refine ⟨by omega, by omega, h3⟩
    · simp at hop

end RcHeap

/-- **C05** Every history of creating, cloning, dropping and modifying handles
that is legal for independent values runs without touching released memory, and
afterwards each live handle reads exactly its own value: a modification through
one handle is never seen through another. -/
theorem C05_copy_on_write {V : Type} (ops : List (HOp V)) : ∀ (m : Nat → Option V),
    HOp.specAll (fun _ => none) ops = some m →
    ∃ s, RcHeap.empty.run ops = .ok s ∧ ∀ h, (∀ v, m h = some v → s.read h = .ok v) ∧
      (m h = none → s.read h = .error .useAfterFree) := by
  suffices H : ∀ (s : RcHeap V) (m m' : Nat → Option V), RcHeap.Sim s m →
      HOp.specAll m ops = some m' → ∃ s', s.run ops = .ok s' ∧ RcHeap.Sim s' m' by
    intro m hm
    have h0 : RcHeap.Sim (RcHeap.empty : RcHeap V) (fun _ => none) :=
      ⟨by simp [RcHeap.empty], by simp [RcHeap.empty], by simp [RcHeap.empty], by simp [RcHeap.empty]⟩
    obtain ⟨s, hrun, hs⟩ := H _ _ _ h0 hm
    refine ⟨s, hrun, fun h => ⟨?_, ?_⟩⟩
    · intro v hv
      obtain ⟨a, n, hmem, haddr, hcells, hcell⟩ := RcHeap.mem_env_of_some hs hv
      simp [RcHeap.read, haddr, hcell, Bind.bind, Except.bind, pure, Except.pure]
    · intro hn
      have := (hs.dom h).mp hn
      have hl : s.env.lookup h = none := by
        cases e : s.env.lookup h with
        | none => rfl
        | some a =>
          exact absurd (List.mem_map_of_mem (f := Prod.fst)
            ((RcHeap.lookup_eq _ hs.nodup _ _).mp e)) this
      simp [RcHeap.read, RcHeap.addr, hl, Bind.bind, Except.bind]
  induction ops with
  | nil =>
    intro s m m' hs h
    simp only [HOp.specAll, Option.some.injEq] at h
    subst h
    exact ⟨s, rfl, hs⟩
  | cons op ops ih =>
    intro s m m' hs h
    simp only [HOp.specAll] at h
    cases hop : op.spec m with
    | none => simp [hop] at h
    | some m1 =>
      simp only [hop, Option.bind_some] at h
      obtain ⟨s1, hs1, hsim⟩ := RcHeap.sim_step hs op hop
      obtain ⟨s2, hs2, hsim2⟩ := ih s1 m1 m' hsim h
      exact ⟨s2, by simp [RcHeap.run, hs1, hs2, Bind.bind, Except.bind], hsim2⟩

/-- `draw_text` recolours a clone of the font's context; the font keeps its own
(renderer.rs 278-279). -/
example : ∃ m, HOp.specAll (fun _ => none)
      [HOp.new 0 GCtx.new, .clone 0 1, .modify 1 (fun g => { g with color := "#ff0000" })] = some m ∧
    m 0 = some GCtx.new ∧ m 1 = some { GCtx.new with color := "#ff0000" } := by
  refine ⟨_, rfl, ?_, ?_⟩ <;> rfl

end Sinab
