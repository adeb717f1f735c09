import Verif.Proofs.AnyMoments
import Verif.Props.Unread
/-
C79: reading calls on a RocksDB datastore that overlap other calls, while I/O errors occur and with values that cannot be read back.
`d` is any reader that reads everything the datastore can read, as the datastore does, and the rest somehow.
-/
namespace IndraDB
open Rocks
variable {X : Cfg} {io : Bool} {letter : Char → Bool} {J : JsonText} {describe : PluginError → String} {reset : Nat}
  {entries : Entries (Json → PluginTask)}

/-- C79: a call or transaction method that task `c` makes after `A`, and that succeeds, returns what is explained by the moments `l` since
then; the iterator it returns may end early with an I/O error. Only calls that count all vertices or all edges are excepted. -/
theorem C79_rocks (d : Bytes → Option Json) (hd : X.Reader d) (hs : List (List AppEv)) (s : Rocks) (hl : AppLife X hs s)
    (h1 h2 : List AppEv) (l : List Rocks) (A S : App) (hx : App.Exec X io s h1 A) (ht : App.Through X io A h2 l S)
    (c : Nat) (hc : A.Outside c) (a : Access) (x : Answer) (hr : AppEv.leave c a (.ok x) ∈ h2) (hn : a.countsAll = false) :
    ∃ x', Moment.Answered (Rocks.During (X.reading d) l) rocksEdgeLt a x' ∧ x.UpToError x' := by
  have ok : ∀ h, OkEnters (Access.ValuesOk (CanRead (X.reading d))) h :=
    fun h => (OkEnters.any h).mono (Access.ValuesOk.mono (fun x _ => Unread.canRead hd x))
  obtain ⟨A', h3, h4⟩ := hx.reading hd
  obtain ⟨S', h5, _⟩ := ht.reading hd h4
  have key : (a.isRead = true ∨ ∃ q, a = .lib (.get q)) →
      ∃ x', Moment.Answered (Rocks.During (X.reading d) l) rocksEdgeLt a x' ∧ x.UpToError x' := fun hk => by
    obtain ⟨x', k1, k2⟩ := h5.answeredF (Sound.appLife (hl.reading hd) (fun h _ => ok h)) h3 (ok _) (h4.outside hc) a x hr hn hk
    exact ⟨x', k2, k1⟩
  cases a with
  | lib op =>
    cases op with
    | get q => exact key (.inr ⟨q, rfl⟩)
    | _ => exact ⟨x, trivial, Answer.UpToError.refl x⟩
  | write w => exact ⟨x, trivial, Answer.UpToError.refl x⟩
  | _ => exact key (.inl rfl)

/-- C79: a query that succeeds reports what it may have observed, whatever I/O errors it met. -/
theorem C79_rocks_query (d : Bytes → Option Json) (hd : X.Reader d) (hs : List (List AppEv)) (s : Rocks) (hl : AppLife X hs s)
    (h1 h2 : List AppEv) (l : List Rocks) (A S : App) (hx : App.Exec X io s h1 A) (ht : App.Through X io A h2 l S)
    (c : Nat) (hc : A.Outside c) (q : Query) (x : Answer) (hr : AppEv.leave c (.lib (.get q)) (.ok x) ∈ h2) (hn : q.countsAll = false) :
    ∃ inc v, x = .reply (.outputs (inc ++ [v])) ∧ Moment.Observed (Rocks.During (X.reading d) l) rocksEdgeLt q inc v := by
  obtain ⟨x', ⟨inc, v, rfl, h3⟩, h4⟩ := C79_rocks d hd hs s hl h1 h2 l A S hx ht c hc _ x hr hn
  refine ⟨inc, v, ?_, h3⟩
  cases x with
  | vertices l => obtain ⟨_, h, _⟩ := h4; cases h
  | edges l => obtain ⟨_, h, _⟩ := h4; cases h
  | ids o => cases o with
    | none => cases h4
    | some l => obtain ⟨_, h, _⟩ := h4; cases h
  | indexedEdges o => cases o with
    | none => cases h4
    | some l => obtain ⟨_, h, _⟩ := h4; cases h
  | reply r => exact h4.symm
  | _ => cases h4

/-- A value that is none of the given ones. -/
theorem Json.fresh (l : List Json) : ∃ v, v ∉ l := by
  have key : ∀ l : List Json, ∃ k : Nat, ∀ b : Bytes, Json.str b ∈ l → b.length < k := by
    intro l
    induction l with
    | nil => exact ⟨0, fun b h => nomatch h⟩
    | cons x l ih =>
      obtain ⟨k, hk⟩ := ih
      cases x with
      | str c =>
        refine ⟨k + c.length + 1, fun b hb => ?_⟩
        rcases List.mem_cons.1 hb with h | h
        · cases h; omega
        · have := hk b h; omega
      | _ =>
        refine ⟨k, fun b hb => ?_⟩
        rcases List.mem_cons.1 hb with h | h
        · cases h
        · exact hk b h
  obtain ⟨k, hk⟩ := key l
  refine ⟨.str (List.replicate k 97), fun h => ?_⟩
  have := hk _ h
  simp at this

/-- C79: the properties a query reports for one vertex or edge were stored, all at the same moment, and could be read. -/
theorem C79_rocks_properties (hs : List (List AppEv)) (s : Rocks) (hl : AppLife X hs s)
    (h1 h2 : List AppEv) (l : List Rocks) (A S : App) (hx : App.Exec X io s h1 A) (ht : App.Through X io A h2 l S)
    (c : Nat) (hc : A.Outside c) (q : Query) (outs : List Output) (hr : AppEv.leave c (.lib (.get q)) (.ok (.reply (.outputs outs))) ∈ h2)
    (hn : q.countsAll = false) :
    (∀ vps, .vertexProperties vps ∈ outs → ∀ x ∈ vps, ∃ t ∈ l, ∀ p ∈ x.props,
      (Rocks.graph X t).vprop x.vertex.id p.name = some p.value) ∧
    (∀ eps, .edgeProperties eps ∈ outs → ∀ x ∈ eps, ∃ t ∈ l, ∀ p ∈ x.props,
      (Rocks.graph X t).eprop x.edge p.name = some p.value) := by
  have fresh : ∀ vs : List Json, ∃ d, X.Reader d ∧ ∀ (o : Option Bytes) v, v ∈ vs → o.bind d = some v → o.bind X.codec.dec = some v := by
    intro vs
    obtain ⟨w, hw⟩ := Json.fresh vs
    refine ⟨fun b => some ((X.codec.dec b).getD w), ⟨fun b v h => by simp [h], fun b => ⟨_, rfl⟩⟩, fun o v hv h => ?_⟩
    cases o with
    | none => cases h
    | some b =>
      simp only [Option.bind_some, Option.some.injEq] at h ⊢
      cases hb : X.codec.dec b with
      | some u => rw [hb] at h; exact congrArg some h
      | none => rw [hb] at h; cases h; exact absurd hv hw
  constructor
  · intro vps hm x hx'
    obtain ⟨d, hd, hf⟩ := fresh (x.props.map (·.value))
    obtain ⟨inc, v, he, hob⟩ := C79_rocks_query d hd hs s hl h1 h2 l A S hx ht c hc q _ hr hn
    cases he
    obtain ⟨m, ⟨t, ht', rfl⟩, h3⟩ := Moment.Observed.included (P := fun o => ∀ es, o = .vertexProperties es → ∀ e ∈ es,
      ∃ m, Rocks.During (X.reading d) l m ∧ ∀ p ∈ e.props, m.graph.vprop e.vertex.id p.name = some p.value)
      (Moment.Observed.vertexProps) q inc v hob _ hm vps rfl x hx'
    exact ⟨t, ht', fun p hp => hf _ _ (List.mem_map.2 ⟨p, hp, rfl⟩) (h3 p hp)⟩
  · intro vps hm x hx'
    obtain ⟨d, hd, hf⟩ := fresh (x.props.map (·.value))
    obtain ⟨inc, v, he, hob⟩ := C79_rocks_query d hd hs s hl h1 h2 l A S hx ht c hc q _ hr hn
    cases he
    obtain ⟨m, ⟨t, ht', rfl⟩, h3⟩ := Moment.Observed.included (P := fun o => ∀ es, o = .edgeProperties es → ∀ e ∈ es,
      ∃ m, Rocks.During (X.reading d) l m ∧ ∀ p ∈ e.props, m.graph.eprop e.edge p.name = some p.value)
      (Moment.Observed.edgeProps) q inc v hob _ hm vps rfl x hx'
    exact ⟨t, ht', fun p hp => hf _ _ (List.mem_map.2 ⟨p, hp, rfl⟩) (h3 p hp)⟩

/-- Requests and their handlers. -/
local notation "prep" => rocksPrep letter J describe reset entries

/-- C79, the server: the response to a query that arrived after `A` is one error, or the encoded outputs of the query as it may have
observed the moments (`l`) since `A`. -/
theorem C79_rocks_server (d : Bytes → Option Json) (hd : X.Reader d)
    (hs : List ((ServerRequest → ServerResponse ⊕ Handler) × List SrvEv)) (s : Rocks) (hl : SrvLife X hs s)
    (h1 h2 : List SrvEv) (l : List Rocks) (A S : Srv)
    (hx : Srv.Exec X io prep s h1 A) (ht : Srv.Through X io prep A h2 l S) (c : Nat) (m : PQuery) (q : Query)
    (hc : SrvEv.call c (.lib (.get m)) ∈ h2) (ho : m.conv letter J = .ok q) (hn : q.countsAll = false)
    (r : Except Status Response) (hr : SrvEv.ret c (.lib r) ∈ h2) :
    (∃ e, r = .ok (.stream [.error (.internal (.err e))])) ∨
    ∃ inc v, r = .ok (.stream ((inc ++ [v]).map (fun o => .ok (o.toProto J)))) ∧
      Moment.Observed (Rocks.During (X.reading d) l) rocksEdgeLt q inc v := by
  obtain ⟨gs, hl, hg⟩ := hl.app
  obtain ⟨g1, g2, lg, B⟩ := Srv.Both.mk' hx ht
  have hu := ht.from.unused hc
  have hf' := B.rest.app.from
  have hop : (Request.get m).op letter J = .ok (.get q) := by simp only [Request.op, ho]; rfl
  obtain ⟨y, e, e1, _, e2, e3⟩ := (B.rest.req c hu).call hc hr hop hl (hf'.exec B.app) (fun _ h => List.mem_append_right _ h)
  cases e
  cases y with
  | error f =>
    cases f with
    | err e => exact .inl ⟨e, rfl⟩
    | panic => exact absurd rfl e1
  | ok y =>
    obtain ⟨inc, v, h3, h4⟩ := C79_rocks_query d hd gs s hl g1 g2 lg A.app S.app B.app B.rest.app c ((B.linked c).outside hu) q _ (e2 y rfl).1 hn
    cases h3
    refine .inr ⟨inc, v, rfl, ?_⟩
    have same : Rocks.During (X.reading d) lg = Rocks.During (X.reading d) l := by
      unfold Rocks.During
      congr 1
      funext t
      exact propext ⟨B.rest.sub t, B.rest.sup t⟩
    rwa [same] at h4

/-- C79, plugins: the response to a plugin request that arrived after `A` is what its plugin returns, where its calls that returned
something got what is explained by the moments (`l`) since `A`, up to I/O errors. In particular its stream is reset only if the code of
the plugin itself panics. -/
theorem C79_rocks_plugin (d : Bytes → Option Json) (hd : X.Reader d)
    (hs : List ((ServerRequest → ServerResponse ⊕ Handler) × List SrvEv)) (s : Rocks) (hl : SrvLife X hs s)
    (h1 h2 : List SrvEv) (l : List Rocks) (A S : Srv)
    (hx : Srv.Exec X io prep s h1 A) (ht : Srv.Through X io prep A h2 l S) (c : Nat) (m : PExecutePluginRequest) (p : PluginTask)
    (hc : SrvEv.call c (.plugin m) ∈ h2) (ho : pluginToRun J entries m = .ok p) (x : ServerResponse) (hr : SrvEv.ret c x ∈ h2) :
    ∃ y, x = .plugin (pluginResponse J describe reset y) ∧
      p.Got (fun a r => ∀ z, r = .ok z → a.countsAll = false →
        ∃ z', Moment.Answered (Rocks.During (X.reading d) l) rocksEdgeLt a z' ∧ z.UpToError z') y := by
  obtain ⟨gs, hl, hg⟩ := hl.app
  obtain ⟨g1, g2, lg, B⟩ := Srv.Both.mk' hx ht
  have hu := ht.from.unused hc
  have he := B.rest.app.from.exec B.app
  have e : prep (.plugin m) = .inr (pluginHandler J describe reset p) := by simp only [rocksPrep, ho]
  rcases (B.rest.req c hu).done hc hr with h | ⟨t, e1, e2⟩
  · rw [e] at h; cases h
  rw [e] at e1; cases e1
  obtain ⟨y, k1, k2⟩ := e2.plugin (fun a h => (C72_rocks_errors gs s hl _ S.app he).1 c a _ (List.mem_append_right _ h) |>.1 (by simp [faultsOf]))
  refine ⟨y, k2, k1.mono fun a r h z hz hn => ?_⟩
  subst hz
  have h : AppEv.leave c a (.ok z) ∈ g2 := h
  have same : Rocks.During (X.reading d) lg = Rocks.During (X.reading d) l := by
    unfold Rocks.During
    congr 1
    funext t
    exact propext ⟨B.rest.sub t, B.rest.sup t⟩
  rw [← same]
  exact C79_rocks d hd gs s hl g1 g2 lg A.app S.app B.app B.rest.app c ((B.linked c).outside hu) a z h hn

/-! ### Counting is an exception -/

/-- A task that makes one call. -/
def W.once (a : Access) : Task := .call a fun _ => .ret

theorem Rocks.App.Exec.through {s : Rocks} {h : List AppEv} {S : App} (hx : App.Exec X io s h S) :
    ∃ l, App.Through X io (.init s) h l S := by
  induction hx with
  | nil => exact ⟨_, .nil⟩
  | snoc _ hs ih =>
    obtain ⟨l, h⟩ := ih
    exact ⟨_, h.snoc hs⟩

/-- `vertex_count` on an empty database returns 1 if its iterator fails: the error is counted. -/
theorem W.counts_error : ∃ h l S, App.Through (W.cfg .debug) true (.init Rocks.init) h l S ∧
    AppEv.leave 0 .vertexCount (.ok (.count 1)) ∈ h ∧ ∀ t ∈ l, t = Rocks.init := by
  have s1 := App.Through.nil (X := W.cfg .debug) (io := true) (A := .init Rocks.init)
  have s2 := s1.snoc (.start _ 0 (W.once .vertexCount) rfl)
  have s3 := s2.snoc (.enter _ 0 .sorted .vertexCount (fun _ => .ret) rfl)
  have s4 := s3.snoc (.scanFails _ 0 0 .vertexCount (fun _ => .ret) .vertices _ _ rfl rfl)
  have s5 := s4.snoc (.leave _ 0 .vertexCount (fun _ => .ret) (.ok (.count 1)) rfl (by rintro ⟨⟩) (by rintro ⟨⟩))
  refine ⟨_, _, _, s5, by simp, fun t ht => ?_⟩
  simp only [List.mem_append, List.mem_singleton] at ht
  rcases ht with ((((h | h) | h) | h) | h) <;> exact h

/-- C79 is false of counting. -/
theorem C79_rocks_count_false : ¬ ∀ (X : Cfg) (d : Bytes → Option Json) (_ : X.Reader d) (hs : List (List AppEv)) (s : Rocks) (_ : AppLife X hs s)
    (h1 h2 : List AppEv) (l : List Rocks) (A S : App) (_ : App.Exec X true s h1 A) (_ : App.Through X true A h2 l S)
    (c : Nat) (_ : A.Outside c) (a : Access) (x : Answer) (_ : AppEv.leave c a (.ok x) ∈ h2),
    ∃ x', Moment.Answered (Rocks.During (X.reading d) l) rocksEdgeLt a x' ∧ x.UpToError x' := by
  intro H
  obtain ⟨h, l, S, ht, hr, hl⟩ := W.counts_error
  obtain ⟨x', ⟨m, vs, ⟨t, h1, rfl⟩, h2, h3⟩, h4⟩ := H (W.cfg .debug) _ (W.cfg .debug).reader_exists [] Rocks.init (.new rfl) [] h l _ S .nil ht
    0 (fun _ _ _ h => nomatch h) _ _ hr
  cases hl t h1
  have e : x' = .count 1 := h4
  rw [e] at h3
  cases vs with
  | nil => cases h3
  | cons v vs =>
    have := (h2.2 v).1 List.mem_cons_self
    have e : (moment ((W.cfg .debug).reading (fun b => some (((W.cfg .debug).codec.dec b).getD .null))) Rocks.init).graph.vertex v.id = none := rfl
    rw [e] at this; cases this

/-! ### Examples -/

/-- Task 0 creates two vertices; task 1 lists all vertices in a transaction, and its iterator fails after one entry; task 2 asks for two
vertices, and meets no error. -/
def W.failing : List App.Act :=
  [.start 0 W.joins, .start 1 (W.once .allVertices), .start 2 (W.once (.lib (.get (.specificVertex [W.u 1, W.u 2]))))] ++
  List.replicate 8 (.step 0) ++ [.step 1, .step 1 (some 1), .step 1, .step 2, .step 2, .step 2, .step 2]

def W.failed (h : List AppEv) : Bool :=
  h.any (fun e => match e with | .leave 1 .allVertices (.ok (.vertices [.ok v, .error (.err .datastore)])) => decide (v = ⟨W.u 1, W.t⟩) | _ => false) &&
  h.any (fun e => match e with
    | .leave 2 (.lib (.get (.specificVertex [i, j]))) (.ok (.reply (.outputs [.vertices vs]))) =>
      decide (i = W.u 1) && decide (j = W.u 2) && decide (vs = [⟨W.u 1, W.t⟩, ⟨W.u 2, W.t⟩])
    | _ => false)

/-- The conditions of C79 are met by a listing that fails after one vertex and by a query that succeeds. -/
example : ∃ h l S, App.Through (W.cfg .debug) true (.init Rocks.init) h l S ∧ AppLife (W.cfg .debug) [] Rocks.init ∧
    (W.cfg .debug).Reader (fun b => some (((W.cfg .debug).codec.dec b).getD .null)) ∧
    AppEv.leave 1 .allVertices (.ok (.vertices [.ok ⟨W.u 1, W.t⟩, .error (.err .datastore)])) ∈ h ∧
    AppEv.leave 2 (.lib (.get (.specificVertex [W.u 1, W.u 2]))) (.ok (.reply (.outputs [.vertices [⟨W.u 1, W.t⟩, ⟨W.u 2, W.t⟩]]))) ∈ h := by
  obtain ⟨h, S, hx, hp⟩ := App.Exec.scheduled (X := W.cfg .debug) (s := Rocks.init) W.failing (fun h _ => W.failed h) (by decide +kernel)
  obtain ⟨l, ht⟩ := hx.through
  simp only [W.failed, Bool.and_eq_true, List.any_eq_true] at hp
  obtain ⟨⟨e1, m1, h1⟩, e2, m2, h2⟩ := hp
  refine ⟨h, l, S, ht, .new rfl, Cfg.reader_exists _, ?_, ?_⟩
  · split at h1
    · rw [of_decide_eq_true h1] at m1; exact m1
    · cases h1
  · split at h2
    · simp only [Bool.and_eq_true, decide_eq_true_eq] at h2
      obtain ⟨⟨rfl, rfl⟩, rfl⟩ := h2
      exact m2
    · cases h2

end IndraDB
