import Verif.Spec.Forest
import Verif.Lemmas.Dom

/-! A computable check that calls of the tree builder are legal, for concrete documents. -/

namespace Sinab
namespace Doc

/-- `a` is not `x` and not an ancestor of `x` -/
def notAnc (d : Doc) (a : NodeId) : Nat → NodeId → Bool
  | 0, _ => false
  | fuel + 1, x => x != a && match (d.node x).parent with
    | none => true
    | some y => notAnc d a fuel y

theorem notAnc_sound {d : Doc} {a : NodeId} : ∀ {fuel : Nat} {x : NodeId},
    notAnc d a fuel x = true → ¬ d.Anc a x
  | 0, _, h => by simp [notAnc] at h
  | fuel + 1, x, h => by
    simp only [notAnc, Bool.and_eq_true, bne_iff_ne, ne_eq] at h
    intro ha
    rcases Relation.ReflTransGen.cases_head ha with rfl | ⟨y, ⟨-, hy⟩, hay⟩
    · exact h.1 rfl
    · rw [hy] at h
      exact notAnc_sound h.2 hay

/-- a check for legality of a call -/
def legalCheck (d : Doc) : SinkOp → Bool
  | .createElement _ _ | .createComment _ | .createPi _ _ | .appendDoctype _ _ _ => true
  | .append p (.node c) => decide (p < d.len) && decide (c < d.len) && (c != documentNodeId) &&
    notAnc d c (d.len + 1) p
  | .append p (.text _) => decide (p < d.len)
  | .addAttrsIfMissing t _ => decide (t < d.len) && (d.node t).data.asElement.isSome
  | .removeFromParent c => decide (c < d.len) && (c != documentNodeId)
  | _ => false

theorem legalCheck_sound {d : Doc} {op : SinkOp} (h : legalCheck d op = true) : op.Legal d := by
  unfold legalCheck at h
  split at h
  · trivial
  · trivial
  · trivial
  · trivial
  · simp only [Bool.and_eq_true, decide_eq_true_eq, bne_iff_ne] at h
    exact ⟨h.1.1.1, h.1.1.2, h.1.2, notAnc_sound h.2⟩
  · simpa [SinkOp.Legal] using h
  · simp only [Bool.and_eq_true, decide_eq_true_eq] at h
    refine ⟨h.1, ?_⟩
    generalize (d.node _).data = dd at h
    cases dd <;> simp_all [NodeData.asElement]
  · simpa [SinkOp.Legal] using h
  · cases h

/-- run legal calls -/
def legalRun : Doc → List SinkOp → Option Doc
  | d, [] => some d
  | d, op :: ops => if legalCheck d op then
      match d.sinkStep op with
      | .ok d' => legalRun d' ops
      | .error _ => none
    else none

theorem legalRun_reachable : ∀ {ops : List SinkOp} {d d' : Doc}, Reachable d →
    legalRun d ops = some d' → Reachable d'
  | [], d, d', hd, h => by simp only [legalRun, Option.some.injEq] at h; subst h; exact hd
  | op :: ops, d, d', hd, h => by
    simp only [legalRun] at h
    split at h
    · rename_i hl
      split at h
      · rename_i d₁ hs
        exact legalRun_reachable (hd.step (legalCheck_sound hl) hs) h
      · cases h
    · cases h

end Doc
end Sinab
