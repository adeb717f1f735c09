import Verif.Spec.Server
/-
Databases that contain only identifiers satisfying `I` and values satisfying `V` (C52).
-/
namespace IndraDB

/-- All identifiers in the graph satisfy `I` and all values `V`. -/
structure Graph.Holds (I : Identifier → Prop) (V : Json → Prop) (g : Graph) : Prop where
  vertex : ∀ id t, g.vertex id = some t → I t
  edge : ∀ e, g.edge e = true → I e.t
  vprop : ∀ id n x, g.vprop id n = some x → I n ∧ V x
  eprop : ∀ e n x, g.eprop e n = some x → I e.t ∧ I n ∧ V x

/-- The types of the edges the index lists satisfy `I`. -/
structure IndexView.Holds (I : Identifier → Prop) (J : IndexView) : Prop where
  present : ∀ n e, J.ePresent n e = true → I e.t
  value : ∀ n x e, J.eValue n x e = true → I e.t

/-- C52: if all identifiers and values in the calls of a history satisfy `I` and `V`, so do those in the replies. -/
def Store.RepliesClosed (S : Store) (I : Identifier → Prop) (V : Json → Prop) : Prop :=
  ∀ hist, S.OkHist hist → (∀ p ∈ hist, p.2.All I V) →
    ∀ r, .ok r ∈ S.replies hist S.init → r.All I V

end IndraDB
