import Verif.Proofs.Moments
import Verif.Props.RocksFill
import Verif.Props.Sched
/-
C70: what queries report that overlap other calls on a RocksDB datastore. C21, C25: counting and reading under concurrency.
-/
set_option linter.unusedSimpArgs false
namespace IndraDB
open Rocks Rocks.Conc LockConc
variable (X : Cfg)

/-- A moment of the list. -/
def Rocks.During (l : List Rocks) : Moment → Prop := moments X (· ∈ l)

/-- Every execution can be watched. -/
theorem C70_rocks_watch (s : Rocks) (h : List Ev) (S : Conc) (c : Nat) :
    Exec X s h S ↔ ∃ l, Watch X s c h l S := ⟨fun hx => Watch.exists hx c, fun ⟨_, w⟩ => w.exec⟩

/-- C70: a query (call `c`) returns what it may observe of the moments `l` while it was under way. -/
theorem C70_rocks (hs : List (List Ev)) (s : Rocks) (hl : FaultyLife X hs s) (hv : ∀ h ∈ hs, OkCalls (CanRead X) h)
    (c : Nat) (h : List Ev) (l : List Rocks) (S : Conc) (w : Watch X s c h l S) (ho : OkCalls (CanRead X) h)
    (q : Query) (a : Reply) (hc : Ev.call c (.get q) ∈ h) (hr : Ev.ret c (.ok a) ∈ h) :
    ∃ inc v, a = .outputs (inc ++ [v]) ∧ Moment.Observed (Rocks.During X l) rocksEdgeLt q inc v := by
  have L := Sound.life hl hv
  have ok := w.ok L.wf L.values ho
  have H := WatchInv.watch (M := (· ∈ l)) w (fun t ht => (ok t ht).1) (fun t ht => (ok t ht).2.readable) (fun t ht => ht)
  cases hcc : S.calls c with
  | unused => exact absurd hr ((H.unused hcc).2 _)
  | running p => exact absurd hr ((H.running p hcc).2.1 _)
  | finished => exact H.finished hcc q a hc hr

/-- C70: in particular, every vertex it reports existed, with the type reported, at some moment of the call. -/
theorem C70_rocks_vertices (hs : List (List Ev)) (s : Rocks) (hl : FaultyLife X hs s) (hv : ∀ h ∈ hs, OkCalls (CanRead X) h)
    (c : Nat) (h : List Ev) (l : List Rocks) (S : Conc) (w : Watch X s c h l S) (ho : OkCalls (CanRead X) h)
    (q : Query) (outs : List Output) (hc : Ev.call c (.get q) ∈ h) (hr : Ev.ret c (.ok (.outputs outs)) ∈ h)
    (vs : List Vertex) (hm : .vertices vs ∈ outs) : ∀ x ∈ vs, ∃ t ∈ l, (Rocks.graph X t).vertex x.id = some x.t := by
  obtain ⟨inc, v, he, hob⟩ := C70_rocks X hs s hl hv c h l S w ho q _ hc hr
  cases he
  intro x hx
  obtain ⟨m, ⟨t, ht, rfl⟩, h1⟩ := Moment.Observed.included (P := fun o => ∀ vs, o = .vertices vs → ∀ x ∈ vs,
    ∃ m, Rocks.During X l m ∧ m.graph.vertex x.id = some x.t) (Moment.Observed.vertices) q inc v hob _ hm vs rfl x hx
  exact ⟨t, ht, h1⟩

/-- C70: every edge it reports existed at some moment of the call, or an index listed it at some moment of the call. -/
theorem C70_rocks_edges (hs : List (List Ev)) (s : Rocks) (hl : FaultyLife X hs s) (hv : ∀ h ∈ hs, OkCalls (CanRead X) h)
    (c : Nat) (h : List Ev) (l : List Rocks) (S : Conc) (w : Watch X s c h l S) (ho : OkCalls (CanRead X) h)
    (q : Query) (outs : List Output) (hc : Ev.call c (.get q) ∈ h) (hr : Ev.ret c (.ok (.outputs outs)) ∈ h)
    (es : List Edge) (hm : .edges es ∈ outs) : ∀ e ∈ es, ∃ t ∈ l, (moment X t).Known e := by
  obtain ⟨inc, v, he, hob⟩ := C70_rocks X hs s hl hv c h l S w ho q _ hc hr
  cases he
  intro x hx
  obtain ⟨m, ⟨t, ht, rfl⟩, h1⟩ := Moment.Observed.included (P := fun o => ∀ es, o = .edges es → ∀ e ∈ es,
    ∃ m, Rocks.During X l m ∧ m.Known e) (Moment.Observed.edges) q inc v hob _ hm es rfl x hx
  exact ⟨t, ht, h1⟩

/-- C70: the properties it reports for one vertex or one edge were, all at the same moment of the call, its properties. -/
theorem C70_rocks_properties (hs : List (List Ev)) (s : Rocks) (hl : FaultyLife X hs s) (hv : ∀ h ∈ hs, OkCalls (CanRead X) h)
    (c : Nat) (h : List Ev) (l : List Rocks) (S : Conc) (w : Watch X s c h l S) (ho : OkCalls (CanRead X) h)
    (q : Query) (outs : List Output) (hc : Ev.call c (.get q) ∈ h) (hr : Ev.ret c (.ok (.outputs outs)) ∈ h) :
    (∀ vps, .vertexProperties vps ∈ outs → ∀ x ∈ vps, ∃ t ∈ l, ∀ p ∈ x.props,
      (Rocks.graph X t).vprop x.vertex.id p.name = some p.value) ∧
    (∀ eps, .edgeProperties eps ∈ outs → ∀ x ∈ eps, ∃ t ∈ l, ∀ p ∈ x.props,
      (Rocks.graph X t).eprop x.edge p.name = some p.value) := by
  obtain ⟨inc, v, he, hob⟩ := C70_rocks X hs s hl hv c h l S w ho q _ hc hr
  cases he
  constructor
  · intro vps hm x hx
    obtain ⟨m, ⟨t, ht, rfl⟩, h1⟩ := Moment.Observed.included (P := fun o => ∀ es, o = .vertexProperties es → ∀ e ∈ es,
      ∃ m, Rocks.During X l m ∧ ∀ p ∈ e.props, m.graph.vprop e.vertex.id p.name = some p.value)
      (Moment.Observed.vertexProps) q inc v hob _ hm vps rfl x hx
    exact ⟨t, ht, h1⟩
  · intro vps hm x hx
    obtain ⟨m, ⟨t, ht, rfl⟩, h1⟩ := Moment.Observed.included (P := fun o => ∀ es, o = .edgeProperties es → ∀ e ∈ es,
      ∃ m, Rocks.During X l m ∧ ∀ p ∈ e.props, m.graph.eprop e.edge p.name = some p.value)
      (Moment.Observed.edgeProps) q inc v hob _ hm vps rfl x hx
    exact ⟨t, ht, h1⟩

/-- C21 while calls overlap: the number of all vertices (edges) is their number at one moment of the call. -/
theorem C21_rocks_concurrent (hs : List (List Ev)) (s : Rocks) (hl : FaultyLife X hs s) (hv : ∀ h ∈ hs, OkCalls (CanRead X) h)
    (c : Nat) (h : List Ev) (l : List Rocks) (S : Conc) (w : Watch X s c h l S) (ho : OkCalls (CanRead X) h)
    (a : Reply) (hr : Ev.ret c (.ok a) ∈ h) :
    (Ev.call c (.get (.count .allVertex)) ∈ h → ∃ t ∈ l, ∃ vs : List Vertex,
      Enumerates vertexLt vs (fun x => (Rocks.graph X t).vertex x.id = some x.t) ∧ a = .outputs [.count vs.length]) ∧
    (Ev.call c (.get (.count .allEdge)) ∈ h → ∃ t ∈ l, ∃ es : List Edge,
      Enumerates rocksEdgeLt es (fun e => (Rocks.graph X t).edge e = true) ∧ a = .outputs [.count es.length]) := by
  constructor
  · intro hc
    obtain ⟨inc, v, rfl, inc', w', k, ⟨rfl, m, ⟨t, ht, rfl⟩, vs, hvs, rfl⟩, hk, rfl, rfl⟩ :=
      C70_rocks X hs s hl hv c h l S w ho _ _ hc hr
    cases hk
    exact ⟨t, ht, vs, hvs, rfl⟩
  · intro hc
    obtain ⟨inc, v, rfl, inc', w', k, ⟨rfl, m, ⟨t, ht, rfl⟩, vs, hvs, rfl⟩, hk, rfl, rfl⟩ :=
      C70_rocks X hs s hl hv c h l S w ho _ _ hc hr
    cases hk
    exact ⟨t, ht, vs, hvs, rfl⟩

/-- C25 while calls overlap, whatever I/O errors occur: every batch in the log was written by a call other than a query; so if there are
only queries, the database stays as it is, on disk and in memory. -/
theorem C25_rocks_concurrent (s : Rocks) (h : List Ev) (S : Conc) (hx : FaultyExec X s h S) :
    (∀ c b, (c, b) ∈ S.log → ∃ op, Ev.call c op ∈ h ∧ ∀ q, op ≠ .get q) ∧
    ((∀ c op, Ev.call c op ∈ h → ∃ q, op = .get q) → S.db = s ∧ S.log = []) := by
  refine ⟨fun c b hb => ?_, only_reads hx⟩
  obtain ⟨op, h1, h2⟩ := (ReadInv.exec hx).log _ hb
  exact ⟨op, h1, fun q hq => h2 ⟨q, hq⟩⟩

/-! ### Examples -/

/-- Vertex 1 is looked up, then vertices 1 and 2 are created one after the other, then vertex 2 is looked up: the query reports
vertex 2 only, which was never true; but vertex 1 was missing at a moment of the call, and vertex 2 was there at a moment of the call. -/
theorem W.torn : ∃ S, Exec (W.cfg .debug) Rocks.init [.call 0 (.get (.specificVertex [W.u 1, W.u 2])),
      .call 1 (.createVertex ⟨W.u 1, W.t⟩), .ret 1 (.ok (.bool true)),
      .call 2 (.createVertex ⟨W.u 2, W.t⟩), .ret 2 (.ok (.bool true)),
      .ret 0 (.ok (.outputs [.vertices [⟨W.u 2, W.t⟩]]))] S ∧ decide (S.log.length = 2) = true :=
  Exec.scheduled [.call 0 (.get (.specificVertex [W.u 1, W.u 2])), .step 0,
    .call 1 (.createVertex ⟨W.u 1, W.t⟩), .step 1, .step 1, .step 1,
    .call 2 (.createVertex ⟨W.u 2, W.t⟩), .step 2, .step 2, .step 2, .step 0, .step 0] _ _ (by decide +kernel)

/-- The hypotheses of C70 are met, with the query (call 0) watched. -/
example : ∃ l S, Watch (W.cfg .debug) Rocks.init 0 [.call 0 (.get (.specificVertex [W.u 1, W.u 2])),
      .call 1 (.createVertex ⟨W.u 1, W.t⟩), .ret 1 (.ok (.bool true)),
      .call 2 (.createVertex ⟨W.u 2, W.t⟩), .ret 2 (.ok (.bool true)),
      .ret 0 (.ok (.outputs [.vertices [⟨W.u 2, W.t⟩]]))] l S := by
  obtain ⟨S, e, _⟩ := W.torn
  obtain ⟨l, w⟩ := (C70_rocks_watch _ _ _ _ 0).1 e
  exact ⟨l, S, w⟩

example : FaultyLife (W.cfg .debug) [] Rocks.init ∧ OkCalls (CanRead (W.cfg .debug)) [.call 0 (.get (.specificVertex [W.u 1, W.u 2])),
      .call 1 (.createVertex ⟨W.u 1, W.t⟩), .ret 1 (.ok (.bool true)),
      .call 2 (.createVertex ⟨W.u 2, W.t⟩), .ret 2 (.ok (.bool true)),
      .ret 0 (.ok (.outputs [.vertices [⟨W.u 2, W.t⟩]]))] := by
  refine ⟨.new rfl, ?_⟩
  intro c op h
  simp at h
  rcases h with ⟨_, rfl⟩ | ⟨_, rfl⟩ | ⟨_, rfl⟩ <;> trivial

/-- Vertices are counted while others are being created: the number was right at one moment. -/
example : ∃ S, Exec (W.cfg .debug) Rocks.init [.call 1 (.createVertex ⟨W.u 1, W.t⟩), .call 0 (.get (.count .allVertex)),
      .call 2 (.createVertex ⟨W.u 2, W.t⟩), .ret 1 (.ok (.bool true)), .ret 2 (.ok (.bool true)),
      .ret 0 (.ok (.outputs [.count 1]))] S ∧ decide (S.log.length = 2) = true :=
  Exec.scheduled [.call 1 (.createVertex ⟨W.u 1, W.t⟩), .step 1, .call 0 (.get (.count .allVertex)), .step 1,
    .call 2 (.createVertex ⟨W.u 2, W.t⟩), .step 0, .step 1, .step 2, .step 2, .step 2, .step 0] _ _ (by decide +kernel)

/-- C25 applies to it: both batches are those of the calls that create vertices. -/
example : ∃ S, FaultyExec (W.cfg .debug) Rocks.init [.call 0 (.get (.specificVertex [W.u 1, W.u 2])),
      .call 1 (.createVertex ⟨W.u 1, W.t⟩), .ret 1 (.ok (.bool true)),
      .call 2 (.createVertex ⟨W.u 2, W.t⟩), .ret 2 (.ok (.bool true)),
      .ret 0 (.ok (.outputs [.vertices [⟨W.u 2, W.t⟩]]))] S ∧ ∃ c b, (c, b) ∈ S.log := by
  obtain ⟨S, e, hl⟩ := W.torn
  refine ⟨S, e.faulty, ?_⟩
  cases hn : S.log with
  | nil => rw [hn] at hl; cases hl
  | cons x l => exact ⟨x.1, x.2, by simp⟩

end IndraDB
