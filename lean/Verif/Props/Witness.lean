import Verif.Model.Memory
import Verif.Proofs.JsonLaws
import Verif.Proofs.MemoryStore
/-
Concrete data for the refutations and for showing that the hypotheses of the theorems can be met.
-/
namespace IndraDB
namespace W

/-- Small ids. -/
def u (n : UInt8) : Uuid := ⟨List.replicate 15 0 ++ [n], by simp⟩
def t : Identifier := ⟨[116], by decide⟩
def t2 : Identifier := ⟨[116, 50], by decide⟩
def p : Identifier := ⟨[112], by decide⟩
def q : Identifier := ⟨[113], by decide⟩
def n (k : Nat) : Json := .num (.posInt (Fin.ofNat _ k))
def e12 : Edge := ⟨u 1, t, u 2⟩
def e21 : Edge := ⟨u 2, t2, u 1⟩
def e11 : Edge := ⟨u 1, t, u 1⟩

/-- Two vertices, three edges (one a loop), properties on both kinds of owners, an index, an overwrite. -/
def calls : List Op :=
  [ .createVertex ⟨u 1, t⟩, .createVertex ⟨u 2, t2⟩, .createEdge e12, .createEdge e21, .createEdge e11,
    .setProperties (.specificVertex [u 1]) p (n 7), .indexProperty p,
    .setProperties .allVertex q (n 1), .setProperties .allEdge p (n 3),
    .setProperties (.specificVertex [u 1]) p (n 8) ]

def hist : List (HashOrder × Op) := calls.map (fun o => (HashOrder.sorted, o))

end W
end IndraDB
