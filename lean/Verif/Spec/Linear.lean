import Verif.Spec.Store
/-
Concurrent histories and linearizability.
-/
namespace IndraDB

namespace Store
variable (S : Store)

/-- One call of a sequential execution: its number, the environment's choices, the operation, and its outcome. -/
structure Lin where
  c : Nat
  env : S.Env
  op : Op
  r : Res Reply

/-- The calls `L`, made one after the other starting in `s`, have the outcomes noted and end in `t`. -/
def Legal : S.State → List S.Lin → S.State → Prop
  | s, [], t => s = t
  | s, x :: L, t => (S.step x.env x.op s).2 = x.r ∧ Legal (S.step x.env x.op s).1 L t

/-- The history `h`, as far as calls satisfying `P` are concerned, and the final state `t` are explained by the sequential
execution `L`: `L` is legal; every returned call is in `L` with its outcome; everything in `L` is a call of `h`, once;
and if a call returned before another was made, it comes first in `L`. -/
structure Linearization (P : Op → Prop) (h : List Ev) (L : List S.Lin) (t : S.State) : Prop where
  legal : S.Legal S.init L t
  called : ∀ x ∈ L, Ev.call x.c x.op ∈ h ∧ P x.op
  once : (L.map (·.c)).Nodup
  returned : ∀ c op r, Ev.call c op ∈ h → P op → Ev.ret c r ∈ h → ∃ env, ⟨c, env, op, r⟩ ∈ L
  order : ∀ a b c r c' op', h = a ++ Ev.ret c r :: b → Ev.call c' op' ∈ b → (∀ op, Ev.call c op ∈ h → P op) →
    c' ∈ L.map (·.c) → [c, c'].Sublist (L.map (·.c))

/-- The history is linearizable, with final state `t`. -/
def Linearizable (h : List Ev) (t : S.State) : Prop := ∃ L, S.Linearization (fun _ => True) h L t

end Store
end IndraDB
