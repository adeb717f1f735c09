import Verif.Proofs.ServerConc
import Verif.Props.PluginTxn
import Verif.Props.Server
/-
C68: the gRPC server on the memory datastore, with many clients at once.
-/
namespace IndraDB
open Service

section
variable (letter : Char → Bool) (J : JsonText) (b : Build) (describe : PluginError → String) (reset : Nat)
  (entries : Entries (Json → PluginProg))

/-- C68: whatever requests (pings, calls, plugins) any number of clients send, however the handlers overlap, and whichever handlers
are dropped because the client goes away: all responses and the state of the database are those of the same requests handled one
after the other (in an order that respects which responses were sent before which requests arrived); requests whose handler was
dropped happened completely or not at all. -/
theorem C68_memory (h : List (memServer letter J b describe reset entries).SEv) (C : (memServer letter J b describe reset entries).Conc)
    (hx : Service.Conc.Exec (memPrep letter J b describe reset entries) h C) :
    ∃ t, (memServer letter J b describe reset entries).Linearizable h t ∧ (C.owner = none → C.db = t) := by
  obtain ⟨L, t, H⟩ := LInv.exec (S := memServer letter J b describe reset entries)
    (prep := memPrep letter J b describe reset entries) (memPrep_inr letter J) (memPrep_inl letter J) hx
  exact ⟨t, ⟨L, H.lin⟩, H.free⟩

/-- C68 for every other division of the handlers into small steps (`prep`), as long as they do, without interference, what the
handlers do. -/
theorem C68_memory_any_steps (prep : (Nat → Finder × HashOrder) → ServerRequest → ServerResponse ⊕ Body MemDb ServerResponse)
    (hb : ∀ env req p, prep env req = .inr p → ∀ d, p.run d = (memServer letter J b describe reset entries).step env req d)
    (hj : ∀ env req r, prep env req = .inl r → ∀ d, (memServer letter J b describe reset entries).step env req d = (d, r))
    (h : List (memServer letter J b describe reset entries).SEv) (C : (memServer letter J b describe reset entries).Conc)
    (hx : Service.Conc.Exec prep h C) :
    ∃ t, (memServer letter J b describe reset entries).Linearizable h t ∧ (C.owner = none → C.db = t) := by
  obtain ⟨L, t, H⟩ := LInv.exec (S := memServer letter J b describe reset entries) (prep := prep) hb hj hx
  exact ⟨t, ⟨L, H.lin⟩, H.free⟩

/-- As long as nobody holds the mutex, the requests in progress have had no effect: in particular, with no request the database
holds nothing half-done. Two handlers never work on the data at the same time. -/
theorem C68_memory_exclusive (h : List (memServer letter J b describe reset entries).SEv)
    (C : (memServer letter J b describe reset entries).Conc)
    (hx : Service.Conc.Exec (memPrep letter J b describe reset entries) h C) (c c' : Nat) (p p' : Body MemDb ServerResponse)
    (h1 : C.calls c = .inside p) (h2 : C.calls c' = .inside p') : c = c' := by
  obtain ⟨L, t, H⟩ := LInv.exec (S := memServer letter J b describe reset entries)
    (prep := memPrep letter J b describe reset entries) (memPrep_inr letter J) (memPrep_inl letter J) hx
  have e1 := H.calls c
  have e2 := H.calls c'
  rw [h1] at e1; rw [h2] at e2
  have e1' : C.owner = some c := e1
  have e2' : C.owner = some c' := e2
  rw [e1'] at e2'; exact Option.some.inj e2'

end

/-- What the one-at-a-time server of C68 does: pings are answered; a plugin request whose argument is not JSON or whose plugin is unknown is
refused, and changes nothing; otherwise the plugin is run with the argument (`null` if there is none), and the response is its result, its
error, or, if it panics or the database was left unusable, a broken stream. (Library requests are handled as in C44 and C45.) -/
theorem C68_memory_requests (env : Nat → Finder × HashOrder) (d : MemDb) :
    let step := (memServer letter J b describe reset entries).step env
    step ServerRequest.ping d = (d, ServerResponse.pong) ∧
    (∀ name a, J.parse a = none →
      step (ServerRequest.plugin ⟨name, some ⟨a⟩⟩) d = (d, ServerResponse.plugin (.error (.invalidArgument .json)))) ∧
    (∀ name arg v, (arg = none ∧ v = .null ∨ ∃ a, arg = some ⟨a⟩ ∧ J.parse a = some v) →
      (entries name = none → step (ServerRequest.plugin ⟨name, arg⟩) d = (d, ServerResponse.plugin (.error .notFound))) ∧
      ∀ plugin, entries name = some plugin →
        let run := MemDb.plugin b env (plugin v) d
        (∀ x, run.2 = .ok (.ok x) →
          step (ServerRequest.plugin ⟨name, arg⟩) d = (run.1, ServerResponse.plugin (.ok ⟨some ⟨J.print x⟩⟩))) ∧
        (∀ e, run.2 = .ok (.error e) →
          step (ServerRequest.plugin ⟨name, arg⟩) d = (run.1, ServerResponse.plugin (.error (.plugin (describe e))))) ∧
        (∀ f, run.2 = .error f → step (ServerRequest.plugin ⟨name, arg⟩) d = (run.1, ServerResponse.plugin (.error (.other reset))))) := by
  intro step
  refine ⟨rfl, fun name a ha => ?_, fun name arg v hv => ?_⟩
  · have : pluginToRun J entries ⟨name, some ⟨a⟩⟩ = .error (.invalidArgument .json) := by
      simp [pluginToRun, PJson.conv, ha, mapConversionResult]
    simp only [step, memServer, this]
  · have hr : pluginToRun J entries ⟨name, arg⟩ = match entries name with
        | none => .error .notFound
        | some plugin => .ok (plugin v) := by
      rcases hv with ⟨rfl, rfl⟩ | ⟨a, rfl, ha⟩
      · simp only [pluginToRun]; cases entries name <;> rfl
      · simp [pluginToRun, PJson.conv, ha, mapConversionResult]; cases entries name <;> rfl
    constructor
    · intro hn
      rw [hn] at hr
      simp only [step, memServer, hr]
    · intro plugin hp
      rw [hp] at hr
      intro run
      refine ⟨fun x hx => ?_, fun e he => ?_, fun f hf => ?_⟩
      · simp only [step, memServer, hr]
        exact Prod.ext rfl (by show ServerResponse.plugin (pluginResponse J describe reset run.2) = _; rw [hx]; rfl)
      · simp only [step, memServer, hr]
        exact Prod.ext rfl (by show ServerResponse.plugin (pluginResponse J describe reset run.2) = _; rw [he]; rfl)
      · simp only [step, memServer, hr]
        exact Prod.ext rfl (by show ServerResponse.plugin (pluginResponse J describe reset run.2) = _; rw [hf]; rfl)

/-- The handler that holds the mutex runs to its end. -/
theorem Service.Conc.Exec.finish {S : Service} {prep : S.Env → S.Req → S.Resp ⊕ Body S.State S.Resp} {h : List S.SEv} {c : Nat}
    (p : Body S.State S.Resp) : ∀ {C : S.Conc}, Service.Conc.Exec prep h C → C.calls c = .inside p →
    Service.Conc.Exec prep h ⟨(p.run C.db).1, none, setAt C.calls c (.leaving (p.run C.db).2)⟩ := by
  induction p with
  | done r => intro C hx hc; have := hx.snoc (.unlock C c r hc); rwa [List.append_nil] at this
  | act f n ih =>
    intro C hx hc
    have e := hx.snoc (.work C c f n hc)
    rw [List.append_nil] at e
    have e := ih C.db e (LockConc.setAt_self _ _ _)
    have hs : ∀ x, setAt (setAt C.calls c (.inside (n C.db))) c x = setAt C.calls c x := by
      intro x; funext i; simp only [setAt]; split <;> rfl
    rw [hs] at e
    exact e

/-- A handler that waits gets the mutex and runs to its end. -/
theorem Service.Conc.Exec.serve {S : Service} {prep : S.Env → S.Req → S.Resp ⊕ Body S.State S.Resp} {h : List S.SEv} {C : S.Conc}
    (hx : Service.Conc.Exec prep h C) (c : Nat) {p : Body S.State S.Resp} (hc : C.calls c = .waiting p) (ho : C.owner = none)
    {d : S.State} {r : S.Resp} (hr : p.run C.db = (d, r)) : Service.Conc.Exec prep h ⟨d, none, setAt C.calls c (.leaving r)⟩ := by
  have e := hx.snoc (.lock C c p hc ho)
  rw [List.append_nil] at e
  have e := e.finish (c := c) p (LockConc.setAt_self _ _ _)
  have hs : ∀ x, setAt (setAt C.calls c (.inside p)) c x = setAt C.calls c x := by
    intro x; funext i; simp only [setAt]; split <;> rfl
  rw [hs] at e
  show Service.Conc.Exec prep h ⟨(d, r).1, none, setAt C.calls c (.leaving (d, r).2)⟩
  rw [← hr]
  exact e

/-- An environment. -/
def W.penv : Nat → Finder × HashOrder := fun _ => (HashEq.byHash.finder, HashOrder.sorted)

theorem W.linked : ∃ d1 d2 d3, MemDb.plugin .debug W.penv W.linker MemDb.new = (d1, .ok (.ok (.num (.posInt 0)))) ∧
    MemDb.step (W.penv 0).1 .debug (W.penv 0).2 (.createVertex ⟨W.u 1, W.t⟩) d1 = (d2, .ok (.bool true)) ∧
    (MemDb.plugin .debug W.penv W.linker d2).1 = d3 ∧
    d3.mem.vertices.get (W.u 1) = some W.t ∧ d3.mem.vertices.get (W.u 9) = some W.t ∧
    d3.mem.edges.contains ⟨W.u 9, W.t, W.u 1⟩ = true := by
  refine ⟨_, _, _, Prod.ext rfl ?_, Prod.ext rfl ?_, rfl, ?_, ?_, ?_⟩ <;> decide +kernel

/-- Client 0 creates vertex 1, client 1 runs the plugin `linker`, client 2 asks for an unknown plugin, client 3 runs `linker` and goes
away before its handler has begun, and client 4 does so after its handler has begun. The plugin of client 1 gets the mutex first, and
sees no vertex. -/
example (J : JsonText) (describe : PluginError → String) (reset : Nat) :
    let entries : Entries (Json → PluginProg) := fun n => if n = "linker" then some (fun _ => W.linker) else none
    let S := memServer (fun _ => true) J .debug describe reset entries
    ∃ C, Service.Conc.Exec (S := S) (memPrep (fun _ => true) J .debug describe reset entries)
      [.call 0 (ServerRequest.lib (.createVertex (Vertex.toProto ⟨W.u 1, W.t⟩))), .call 1 (ServerRequest.plugin ⟨"linker", none⟩),
       .call 2 (ServerRequest.plugin ⟨"other", none⟩), .ret 2 (ServerResponse.plugin (.error .notFound)),
       .call 3 (ServerRequest.plugin ⟨"linker", none⟩),
       .ret 1 (ServerResponse.plugin (.ok ⟨some ((Json.num (.posInt 0)).toProto J)⟩)),
       .ret 0 (ServerResponse.lib (.ok (.created true))),
       .call 4 (ServerRequest.plugin ⟨"linker", none⟩)] C ∧
    C.owner = none ∧ C.db.mem.vertices.get (W.u 1) = some W.t ∧ C.db.mem.vertices.get (W.u 9) = some W.t ∧
      C.db.mem.edges.contains ⟨W.u 9, W.t, W.u 1⟩ = true := by
  intro entries S
  obtain ⟨d1, d2, d3, r1, r2, r3, v1, v9, ve⟩ := W.linked
  have e := Service.Conc.Exec.nil (S := S) (prep := memPrep (fun _ => true) J .debug describe reset entries)
  have e := e.snoc (.accept _ 0 W.penv (ServerRequest.lib (.createVertex (Vertex.toProto ⟨W.u 1, W.t⟩))) _ rfl rfl)
  have e := e.snoc (.accept _ 1 W.penv (ServerRequest.plugin ⟨"linker", none⟩) _ rfl rfl)
  have e := e.snoc (.reject _ 2 W.penv (ServerRequest.plugin ⟨"other", none⟩) _ rfl rfl)
  have e := e.snoc (.respond _ 2 _ rfl)
  have e := e.snoc (.accept _ 3 W.penv (ServerRequest.plugin ⟨"linker", none⟩) _ rfl rfl)
  have e := e.serve (d := d1) (r := ServerResponse.plugin (.ok ⟨some ((Json.num (.posInt 0)).toProto J)⟩)) 1 rfl rfl (by
    refine (memPrep_inr (fun _ => true) J (b := .debug) (describe := describe) (reset := reset) (entries := entries) W.penv
      (ServerRequest.plugin ⟨"linker", none⟩) _ rfl _).trans ?_
    show ((MemDb.plugin .debug W.penv W.linker MemDb.new).1,
      ServerResponse.plugin (pluginResponse J describe reset (MemDb.plugin .debug W.penv W.linker MemDb.new).2)) = _
    rw [r1]; rfl)
  have e := e.snoc (.dropWaiting _ 3 _ rfl)
  have e := e.snoc (.respond _ 1 _ rfl)
  have e := e.serve (d := d2) (r := ServerResponse.lib (.ok (.created true))) 0 rfl rfl (by
    refine (Body.map_run _ _ d1).trans ?_
    rw [Mem.body_run]
    show ((MemDb.step (W.penv 0).1 .debug (W.penv 0).2 (.createVertex ⟨W.u 1, W.t⟩) d1).1, ServerResponse.lib (Request.respond J _
      (MemDb.step (W.penv 0).1 .debug (W.penv 0).2 (.createVertex ⟨W.u 1, W.t⟩) d1).2)) = _
    rw [r2]; rfl)
  have e := e.snoc (.respond _ 0 _ rfl)
  have e := e.snoc (.accept _ 4 W.penv (ServerRequest.plugin ⟨"linker", none⟩) _ rfl rfl)
  have e := e.serve (d := d3) (r := ServerResponse.plugin (pluginResponse J describe reset (MemDb.plugin .debug W.penv W.linker d2).2))
    4 rfl rfl (by
    refine (memPrep_inr (fun _ => true) J (b := .debug) (describe := describe) (reset := reset) (entries := entries) W.penv
      (ServerRequest.plugin ⟨"linker", none⟩) _ rfl d2).trans ?_
    show ((MemDb.plugin .debug W.penv W.linker d2).1, _) = _
    rw [r3]; rfl)
  have e := e.snoc (.dropLeaving _ 4 _ rfl)
  exact ⟨_, e, rfl, v1, v9, ve⟩

end IndraDB
