import Verif.Model.ServerConc
import Verif.Proofs.MemoryAny
/-
Concurrent histories of a service, and linearizability. (The same notions as in `Spec/Linear`, for requests and responses of any
kind.)
-/
namespace IndraDB

namespace Service
variable (S : Service)

/-- One request of a sequential execution: its number, the environment's choices, the request, and its response. -/
structure Lin where
  c : Nat
  env : S.Env
  req : S.Req
  r : S.Resp

/-- The requests `L`, handled one after the other starting in `s`, get the responses noted, and end in `t`. -/
def Legal : S.State → List S.Lin → S.State → Prop
  | s, [], t => s = t
  | s, x :: L, t => (S.step x.env x.req s).2 = x.r ∧ Legal (S.step x.env x.req s).1 L t

/-- The history `h` and the final state `t` are explained by the sequential execution `L`: `L` is legal; every request with a
response is in `L` with this response; everything in `L` is a request of `h`, once; and if a response was sent before another
request arrived, it comes first in `L`. -/
structure Linearization (h : List S.SEv) (L : List S.Lin) (t : S.State) : Prop where
  legal : S.Legal S.init L t
  called : ∀ x ∈ L, SEv.call x.c x.req ∈ h
  once : (L.map (·.c)).Nodup
  returned : ∀ c req r, SEv.call c req ∈ h → SEv.ret c r ∈ h → ∃ env, ⟨c, env, req, r⟩ ∈ L
  order : ∀ a b c r c' req', h = a ++ SEv.ret c r :: b → SEv.call c' req' ∈ b →
    c' ∈ L.map (·.c) → [c, c'].Sublist (L.map (·.c))

/-- The history is linearizable, with final state `t`. -/
def Linearizable (h : List S.SEv) (t : S.State) : Prop := ∃ L, S.Linearization h L t

end Service

section
variable (letter : Char → Bool) (J : JsonText)

/-- The server on the memory datastore, one request at a time: pings and library calls are handled as in `Model/Server`, and a plugin
runs by itself. -/
def memServer (b : Build) (describe : PluginError → String) (reset : Nat) (entries : Entries (Json → PluginProg)) : Service where
  State := MemDb
  Env := Nat → Finder × HashOrder
  Req := ServerRequest
  Resp := ServerResponse
  init := MemDb.new
  step := fun env req d => match req with
    | .ping => (d, .pong)
    | .lib req => (((memStoreAny b).handle letter J (env 0) req d).1, .lib ((memStoreAny b).handle letter J (env 0) req d).2)
    | .plugin m => match pluginToRun J entries m with
      | .error st => (d, .plugin (.error st))
      | .ok p => ((MemDb.plugin b env p d).1, .plugin (pluginResponse J describe reset (MemDb.plugin b env p d).2))

end
end IndraDB
