import Verif.Proofs.RocksServerProgress
import Verif.Props.RocksServer
import Verif.Props.RocksServerCases
/-
C77: the server on the RocksDB datastore answers every request whose client stays.
-/
namespace IndraDB
open Rocks
variable {X : Cfg} {io : Bool} {letter : Char → Bool} {J : JsonText} {describe : PluginError → String} {reset : Nat}
  {entries : Entries (Json → PluginTask)}

/-- Requests and their handlers. -/
local notation "prep" => rocksPrep letter J describe reset entries

/-- C77: whatever requests have arrived, whatever plugins do (including panics), whatever I/O errors occur and whatever clients go away,
whether or not the lock lets readers overtake waiting writers: the requests that have arrived take only finitely many further
steps; and when no step is possible any more, every request whose client stays has a response. Hypothesis `hd`: none of those was
dropped before. -/
theorem C77_rocks (s : Rocks) (polite : Bool) (stays : Nat → Prop) (h : List SrvEv) (S : Srv) (hx : Srv.Exec X io prep s h S)
    (hd : ∀ c, stays c → S.reqs c = .finished → ∃ r, SrvEv.ret c r ∈ h) :
    Inevitably (Srv.Moves X polite prep stays) (h, S) (fun v => ∀ c req, SrvEv.call c req ∈ v.1 → stays c → ∃ r, SrvEv.ret c r ∈ v.1) := by
  obtain ⟨N, hN⟩ := hx.bounded
  refine Acc.inevitably (Srv.Moves.acc N _ (h, S) rfl hN) fun v hs hend c req hcall hst => ?_
  obtain ⟨hx', hd'⟩ := Srv.Moves.star (v := (h, S)) hx.weaken hd hs
  rcases Srv.stuck hx' hend c with hc | hc
  · obtain ⟨g, _, _, B⟩ := Srv.Both.mk' hx' .nil
    have := (B.req c).at_
    rw [hc] at this
    exact absurd hcall (this.1 req)
  · exact hd' c hst hc

/-- C77, and then the server is at rest: every request has been answered or its client is gone, no task is inside a call, and no
guard of the lock on the set of indexed names is held. -/
theorem C77_rocks_rest (s : Rocks) (polite : Bool) (stays : Nat → Prop) (h : List SrvEv) (S : Srv) (hx : Srv.Exec X io prep s h S)
    (hd : ∀ c, stays c → S.reqs c = .finished → ∃ r, SrvEv.ret c r ∈ h) :
    Inevitably (Srv.Moves X polite prep stays) (h, S) (fun v => (∀ c, v.2.reqs c = .unused ∨ v.2.reqs c = .finished) ∧
      v.2.app.AllOutside ∧ v.2.app.writer = none ∧ v.2.app.readers = []) := by
  obtain ⟨N, hN⟩ := hx.bounded
  refine Acc.inevitably (Srv.Moves.acc N _ (h, S) rfl hN) fun v hs hend => ?_
  obtain ⟨hx', hd'⟩ := Srv.Moves.star (v := (h, S)) hx.weaken hd hs
  have rest := Srv.stuck hx' hend
  have out : v.2.app.AllOutside := by
    intro c a p k hc
    have L := hx'.linked c
    unfold Srv.Linked at L
    rcases rest c with h | h <;> rw [h, hc] at L
    · cases L
    · rcases L with L | L <;> cases L
  obtain ⟨g, _, _, B⟩ := Srv.Both.mk' hx' .nil
  have H := App.LockInv.exec B.app
  refine ⟨rest, out, ?_, ?_⟩
  · cases hw : v.2.app.writer with
    | none => rfl
    | some c => obtain ⟨a, p, k, hc, _⟩ := H.writer c hw; exact absurd hc (out c a p k)
  · cases hr : v.2.app.readers with
    | nil => rfl
    | cons c l => obtain ⟨a, p, k, hc, _⟩ := H.readers c (by rw [hr]; simp); exact absurd hc (out c a p k)

/-- The plugin is inside a call and holds the lock, vertex 2 has not been created, the query for the owners of `foo` waits, and a
client has gone away; the clients 0, 1, 2 and 5 stay. -/
def W.going : List Srv.Act := W.morning ++
  [.step 1, .arrive 5 (.lib (.get (.vertexWithPropertyPresence (some ⟨"foo"⟩)))), .arrive 6 (.plugin ⟨"bad", none⟩), .drop 6]


example : ∃ h S, Srv.Exec (W.cfg .debug) false W.served Rocks.init h S ∧ S.app.readers = [1] ∧
    (∃ t, S.reqs 1 = .running t) ∧ (∃ t, S.reqs 2 = .waiting t) ∧ (∃ t, S.reqs 5 = .waiting t) ∧ S.reqs 6 = .finished ∧
    ∀ c, c ∈ [0, 1, 2, 5] → S.reqs c = .finished → ∃ r, SrvEv.ret c r ∈ h := by
  obtain ⟨h1, A, h2, S, hx, hf, a1, a2, hp⟩ := @Srv.scheduled (W.cfg .debug) W.served false Rocks.init
    W.going [] (fun h A _ _ => (W.said 0 (fun _ => true) h && decide (A.app.readers = [1])) &&
      ((match A.reqs 1 with | .running _ => true | _ => false) && (match A.reqs 2 with | .waiting _ => true | _ => false) &&
       (match A.reqs 5 with | .waiting _ => true | _ => false) && (match A.reqs 6 with | .finished => true | _ => false)))
    (by decide +kernel) (by decide +kernel) (by decide +kernel)
  simp only [Bool.and_eq_true, decide_eq_true_eq] at hp
  obtain ⟨⟨p0, p1⟩, ⟨⟨p2, p3⟩, p4⟩, p5⟩ := hp
  have r1 : ∃ t, A.reqs 1 = .running t := by
    split at p2
    · exact ⟨_, by assumption⟩
    · cases p2
  have r2 : ∃ t, A.reqs 2 = .waiting t := by
    split at p3
    · exact ⟨_, by assumption⟩
    · cases p3
  have r5 : ∃ t, A.reqs 5 = .waiting t := by
    split at p4
    · exact ⟨_, by assumption⟩
    · cases p4
  have r6 : A.reqs 6 = .finished := by
    split at p5
    · assumption
    · cases p5
  refine ⟨h1, A, hx, p1, r1, r2, r5, r6, fun c hc he => ?_⟩
  simp only [List.mem_cons, List.not_mem_nil, or_false] at hc
  rcases hc with rfl | rfl | rfl | rfl
  · obtain ⟨r, hr, _⟩ := W.said_of p0; exact ⟨r, hr⟩
  · obtain ⟨t, h⟩ := r1; rw [h] at he; cases he
  · obtain ⟨t, h⟩ := r2; rw [h] at he; cases he
  · obtain ⟨t, h⟩ := r5; rw [h] at he; cases he

end IndraDB
