import Verif.Proofs.RocksServerRun
import Verif.Props.AppMoments
import Verif.Props.AppNames
/-
C76: the gRPC server on the RocksDB datastore, serving overlapping requests.
-/
namespace IndraDB
open Rocks
variable {X : Cfg} {io : Bool} {letter : Char → Bool} {J : JsonText} {describe : PluginError → String} {reset : Nat}
  {entries : Entries (Json → PluginTask)}

/-- Requests and their handlers. -/
local notation "prep" => rocksPrep letter J describe reset entries

/-- C76, what the server is: whatever it does is done by a process in which the tasks of the requests call the library and use
transactions, so that C72-C75 hold of it; these tasks make no call that the handlers of the requests that arrived do not make. -/
theorem C76_rocks_process (s : Rocks) (h : List SrvEv) (S : Srv) (hx : Srv.Exec X io prep s h S) :
    ∃ g, App.Exec X io s g S.app ∧ ∀ ok, OkRequests ok prep h → OkEnters ok g := by
  obtain ⟨g1, _, _, B⟩ := Srv.Both.mk' hx .nil
  exact ⟨g1, B.app, fun ok ho => (B.enters ok ho).2⟩

/-- What a library request was answered with. -/
theorem Rocks.Srv.ReqAt.answered {S : Srv} {c : Nat} {h : List SrvEv} {g : List AppEv} (H : Srv.ReqAt prep c h g S) {req : Request}
    (hc : SrvEv.call c (.lib req) ∈ h) {x : ServerResponse} (hx : SrvEv.ret c x ∈ h) {op : Op} (ho : req.op letter J = .ok op) :
    ∃ r, AppEv.leave c (.lib op) r ∈ g ∧
      x = .lib (req.respond J (match r with | .ok y => libResult (.ok y) | .error f => .error f)) := by
  have e : prep (.lib req) = .inr (libHandler J req op) := by simp only [rocksPrep, ho]
  rcases H.done hc hx with h | ⟨t, h1, h2⟩
  · rw [e] at h; cases h
  · rw [e] at h1; cases h1; exact h2.lib

/-- C76, requests that cannot be converted, and pings, are answered without the database. -/
theorem C76_rocks_refused (s : Rocks) (h : List SrvEv) (S : Srv) (hx : Srv.Exec X io prep s h S) (c : Nat) (x : ServerResponse)
    (hr : SrvEv.ret c x ∈ h) :
    (SrvEv.call c .ping ∈ h → x = .pong) ∧
    (∀ req st, SrvEv.call c (.lib req) ∈ h → req.op letter J = .error st → x = .lib (.error st)) ∧
    ∀ m st, SrvEv.call c (.plugin m) ∈ h → pluginToRun J entries m = .error st → x = .plugin (.error st) := by
  obtain ⟨g1, _, _, B⟩ := Srv.Both.mk' hx .nil
  have key : ∀ req y, SrvEv.call c req ∈ h → prep req = .inl y → x = y := by
    intro req y hc e
    rcases (B.req c).done hc hr with h | ⟨t, h1, _⟩
    · rw [e] at h; cases h; rfl
    · rw [e] at h1; cases h1
  refine ⟨fun hc => key _ _ hc rfl, fun req st hc e => key _ _ hc (by simp only [rocksPrep, e]), fun m st hc e => key _ _ hc ?_⟩
  simp only [rocksPrep, e]

/-- The errors in the response to a library request are those of its call. -/
theorem respond_faults {req : Request} {r : Res Reply} (hr : r ≠ .error .panic) (f : Fault)
    (hf : f ∈ Response.faults (req.respond J r)) : r = .error f := by
  cases r with
  | ok y =>
    exfalso
    cases req with
    | get m =>
      simp only [Request.respond, Response.faults, List.mem_filterMap] at hf
      obtain ⟨i, h1, h2⟩ := hf
      cases y with
      | outputs l =>
        simp only [getStream, List.mem_map] at h1
        obtain ⟨o, _, rfl⟩ := h1
        cases h2
      | _ => simp [getStream] at h1
    | _ => cases y <;> simp [Request.respond, Response.faults] at hf
  | error f' =>
    cases req with
    | get m =>
      simp only [Request.respond, Response.faults, List.mem_filterMap] at hf
      obtain ⟨i, h1, h2⟩ := hf
      cases f' with
      | err e =>
        simp only [getStream, List.mem_singleton] at h1
        subst h1
        cases h2; rfl
      | panic => exact absurd rfl hr
    | _ =>
      simp only [Request.respond, Response.faults, List.mem_singleton] at hf
      rw [hf]

/-- The call behind a response, in a life of the database. -/
theorem Rocks.Srv.ReqAt.call {S : Srv} {c : Nat} {h : List SrvEv} {g g' : List AppEv} (H : Srv.ReqAt prep c h g S) {req : Request}
    (hc : SrvEv.call c (.lib req) ∈ h) {x : ServerResponse} (hx : SrvEv.ret c x ∈ h) {op : Op} (ho : req.op letter J = .ok op)
    {gs : List (List AppEv)} {s : Rocks} (hl : AppLife X gs s) {A : App} (he : App.Exec X io s g' A) (hg : ∀ e ∈ g, e ∈ g') :
    ∃ r : Res Reply, x = .lib (req.respond J r) ∧ r ≠ .error .panic ∧ r ≠ .error (.err .io) ∧
      (∀ y, r = .ok y → AppEv.leave c (.lib op) (.ok (.reply y)) ∈ g ∧ ∀ q, op = .get q → ∃ l, y = .outputs l ∧ l ≠ []) ∧
      ∀ f, r = .error f → AppEv.leave c (.lib op) (.error f) ∈ g := by
  obtain ⟨r, h1, h2⟩ := H.answered hc hx ho
  have E := (C72_rocks_errors gs s hl g' A he).1 c _ r (hg _ h1)
  cases r with
  | ok a =>
    obtain ⟨y, rfl, hy⟩ := lib_reply he (hg _ h1)
    refine ⟨.ok y, h2, by simp, by simp, fun y' e => ?_, fun f e => by cases e⟩
    cases e; exact ⟨h1, hy⟩
  | error f =>
    refine ⟨.error f, h2, fun e => ?_, fun e => ?_, (fun y e => by cases e), (fun f' e => by cases e; exact h1)⟩
    · cases e; exact E.1 (by simp [faultsOf])
    · cases e; exact E.2 (by simp [faultsOf])

theorem Rocks.Srv.Follow.same {pr : ServerRequest → ServerResponse ⊕ Handler} {A S : Srv} {h : List SrvEv} {l : List Rocks} {g : List AppEv}
    {lg : List Rocks} (F : Srv.Follow X io pr A h l g lg S) : moments X (· ∈ lg) = Rocks.During X l := by
  unfold Rocks.During
  congr 1
  funext t
  exact propext ⟨F.sub t, F.sup t⟩

/-- C76, errors: in any life of the database, with I/O errors and crashes, and with whatever plugins, no response reports a panic of the
library; the response to a query is never an empty stream (which is how a panic would show); and the database can be opened again
after a crash at any moment. -/
theorem C76_rocks_errors (hs : List ((ServerRequest → ServerResponse ⊕ Handler) × List SrvEv)) (s : Rocks) (hl : SrvLife X hs s)
    (h : List SrvEv) (S : Srv) (hx : Srv.Exec X io prep s h S) :
    (∀ c req op r, SrvEv.call c (.lib req) ∈ h → req.op letter J = .ok op → SrvEv.ret c (.lib r) ∈ h →
      .panic ∉ Response.faults r ∧ .err .io ∉ Response.faults r ∧ r ≠ .ok (.stream [])) ∧
    ∀ k, ∃ t, (newDb (Dir.full ((S.app.log.take k).foldl (fun kv x => kv.write x.2) s.kv))).2 = .ok t := by
  obtain ⟨gs, hl, _⟩ := hl.app
  obtain ⟨g1, _, _, B⟩ := Srv.Both.mk' hx .nil
  refine ⟨fun c req op r hc ho hr => ?_, (C72_rocks_errors gs s hl g1 S.app B.app).2⟩
  obtain ⟨y, e, h1, h2, h3, _⟩ := (B.req c).call hc hr ho hl B.app (fun _ h => h)
  cases e
  refine ⟨fun hf => h1 (respond_faults h1 _ hf), fun hf => h2 (respond_faults h1 _ hf), fun e => ?_⟩
  cases req with
  | get m =>
    simp only [Request.op] at ho
    cases hm : mapConversionResult (m.conv letter J) with
    | error st => rw [hm] at ho; cases ho
    | ok q =>
      rw [hm] at ho
      cases ho
      simp only [Request.respond] at e
      injection e with e
      injection e with e
      cases y with
      | ok y =>
        obtain ⟨l, rfl, hne⟩ := (h3 y rfl).2 q rfl
        simp only [getStream, List.map_eq_nil_iff] at e
        exact hne e
      | error f => cases f with
        | err => cases e
        | panic => exact h1 rfl
  | _ => cases y with
    | ok y => cases y <;> simp [Request.respond] at e
    | error f => simp [Request.respond] at e

/-- C76: `index_property` requests that were answered with success index the property. -/
theorem Rocks.IndexedFor.by' {c : Nat} {h : List SrvEv} {g : List AppEv} {S : Srv} (H : Srv.ReqAt prep c h g S) {n : Identifier} {m : PIndexPropertyRequest}
    (h1 : SrvEv.call c (.lib (.indexProperty m)) ∈ h) (h2 : m.conv letter = .ok n) (h3 : SrvEv.ret c (.lib (.ok .empty)) ∈ h) :
    IndexedBy g n := by
  obtain ⟨r, g1, g2⟩ := H.answered h1 h3 (op := .indexProperty n) (by simp only [Request.op, h2]; rfl)
  cases r with
  | ok y => exact ⟨c, _, y, g1, rfl⟩
  | error f => simp [Request.respond] at g2

/-- C76, indexed names: with I/O errors and crashes. If all properties a library request looks up were indexed when the database was
opened, or an `index_property` request has been answered with success before (at `A`), the response does not report that a property
is not indexed. -/
theorem C76_rocks_names (hs : List ((ServerRequest → ServerResponse ⊕ Handler) × List SrvEv)) (s : Rocks) (hl : SrvLife X hs s)
    (h1 h2 : List SrvEv) (A S : Srv) (hx : Srv.Exec X io prep s h1 A) (hf : Srv.From X io prep A h2 S)
    (c : Nat) (req : Request) (op : Op) (r : Except Status Response) (hc : SrvEv.call c (.lib req) ∈ h2) (ho : req.op letter J = .ok op)
    (hr : SrvEv.ret c (.lib r) ∈ h2) (hm : ∀ m ∈ op.lookups, (Rocks.graph X s).indexed m = true ∨ IndexedFor letter h1 m) :
    .err .notIndexed ∉ Response.faults r := by
  obtain ⟨gs, hl, _⟩ := hl.app
  obtain ⟨l, ht⟩ := hf.through
  obtain ⟨g1, g2, lg, B⟩ := Srv.Both.mk' hx ht
  have hu := hf.unused hc
  have hf' := B.rest.app.from
  obtain ⟨y, e, e1, _, _, e3⟩ := (B.rest.req c hu).call hc hr ho hl (hf'.exec B.app) (fun _ h => List.mem_append_right _ h)
  cases e
  intro hb
  have := respond_faults e1 _ hb
  subst this
  refine (C74_rocks gs s hl g1 g2 A.app S.app B.app c ((B.linked c).outside hu) hf' (.lib op) _ (e3 _ rfl) fun m hm' => ?_).2 (by simp [faultsOf])
  refine (hm m hm').imp_right ?_
  rintro ⟨c', m', k1, k2, k3⟩
  exact IndexedFor.by' (B.req c') k1 k2 k3

/-- C76, names nobody indexed: with I/O errors and crashes. If no request that arrived could index `n`, it is not indexed, and every
library request that looks it up is answered with an error. -/
theorem C76_rocks_never (hs : List ((ServerRequest → ServerResponse ⊕ Handler) × List SrvEv)) (s : Rocks) (hl : SrvLife X hs s)
    (h : List SrvEv) (S : Srv) (hx : Srv.Exec X io prep s h S) (n : Identifier) (hn : (Rocks.graph X s).indexed n = false)
    (hi : OkRequests (fun a => ¬ a.Indexes n) prep h) :
    (Rocks.graph X S.app.db).indexed n = false ∧
    ∀ c req op r, SrvEv.call c (.lib req) ∈ h → req.op letter J = .ok op → n ∈ op.lookups → SrvEv.ret c (.lib r) ∈ h →
      ∃ e, Response.faults r = [.err e] := by
  obtain ⟨gs, hl, _⟩ := hl.app
  obtain ⟨g1, _, _, B⟩ := Srv.Both.mk' hx .nil
  have N := C74_rocks_never s g1 S.app B.app n hn (B.enters _ hi).2
  refine ⟨N.1, fun c req op r hc ho hm hr => ?_⟩
  obtain ⟨y, e, h1, h2, h3, h4⟩ := (B.req c).call hc hr ho hl B.app (fun _ h => h)
  cases e
  cases y with
  | ok y =>
    exfalso
    rcases N.2 c _ _ (h3 y rfl).1 hm with ⟨f, h⟩ | h
    · cases h
    · exact h
  | error f =>
    cases f with
    | panic => exact absurd rfl h1
    | err e => exact ⟨e, by cases req <;> rfl⟩

/-- C76, reasons for errors: all values ever put in can be read back, and no I/O error occurs in the present run (in earlier ones there
may have been any, and crashes). Then a library request that is converted fails only for one of the reasons in `Reason`. -/
theorem C76_rocks_reasons (hs : List ((ServerRequest → ServerResponse ⊕ Handler) × List SrvEv)) (s : Rocks) (hl : SrvLife X hs s)
    (hv : ∀ p ∈ hs, OkRequests (Access.ValuesOk (CanRead X)) p.1 p.2) (h1 h2 : List SrvEv) (A S : Srv)
    (hx : Srv.Exec X false prep s h1 A) (hf : Srv.From X false prep A h2 S)
    (hov : OkRequests (Access.ValuesOk (CanRead X)) prep (h1 ++ h2)) (c : Nat) (req : Request) (op : Op) (r : Except Status Response)
    (hc : SrvEv.call c (.lib req) ∈ h2) (ho : req.op letter J = .ok op) (hr : SrvEv.ret c (.lib r) ∈ h2) (f : Fault)
    (hb : f ∈ Response.faults r) :
    ∃ e, f = .err e ∧ Reason (fun m => (Rocks.graph X s).indexed m = true ∨ IndexedFor letter h1 m) op e := by
  obtain ⟨gs, hl, hg⟩ := hl.app
  obtain ⟨l, ht⟩ := hf.through
  obtain ⟨g1, g2, lg, B⟩ := Srv.Both.mk' hx ht
  have hu := hf.unused hc
  have hf' := B.rest.app.from
  obtain ⟨y, e, e1, _, _, e3⟩ := (B.rest.req c hu).call hc hr ho hl (hf'.exec B.app) (fun _ h => List.mem_append_right _ h)
  cases e
  have := respond_faults e1 _ hb
  subst this
  have b1 := B.enters _ hov.left
  obtain ⟨e, rfl, h3⟩ := C74_rocks_reasons gs s hl (hg _ hv) g1 g2 A.app S.app B.app c ((B.linked c).outside hu) hf'
    (b1.2.append (B.rest.enters _ b1.1 hov.right).2) op f (e3 _ rfl)
  refine ⟨e, rfl, ?_⟩
  cases e with
  | notIndexed =>
    obtain ⟨m, k1, k2⟩ := h3
    refine ⟨m, k1, fun h => k2 (h.imp_right ?_)⟩
    rintro ⟨c', m', j1, j2, j3⟩
    exact IndexedFor.by' (B.req c') j1 j2 j3
  | _ => exact h3

/-- C76, queries: the response to a query that arrived after `A` is one error, or the encoded outputs of the query as it may have
observed the moments (`l`) since `A`. -/
theorem C76_rocks_reports (hs : List ((ServerRequest → ServerResponse ⊕ Handler) × List SrvEv)) (s : Rocks) (hl : SrvLife X hs s)
    (hv : ∀ p ∈ hs, OkRequests (Access.ValuesOk (CanRead X)) p.1 p.2) (h1 h2 : List SrvEv) (l : List Rocks) (A S : Srv)
    (hx : Srv.Exec X false prep s h1 A) (ht : Srv.Through X false prep A h2 l S)
    (hov : OkRequests (Access.ValuesOk (CanRead X)) prep (h1 ++ h2)) (c : Nat) (m : PQuery) (q : Query)
    (hc : SrvEv.call c (.lib (.get m)) ∈ h2) (ho : m.conv letter J = .ok q) (r : Except Status Response) (hr : SrvEv.ret c (.lib r) ∈ h2) :
    (∃ e, r = .ok (.stream [.error (.internal (.err e))])) ∨
    ∃ inc v, r = .ok (.stream ((inc ++ [v]).map (fun o => .ok (o.toProto J)))) ∧
      Moment.Observed (Rocks.During X l) rocksEdgeLt q inc v := by
  obtain ⟨gs, hl, hg⟩ := hl.app
  obtain ⟨g1, g2, lg, B⟩ := Srv.Both.mk' hx ht
  have hu := ht.from.unused hc
  have hf' := B.rest.app.from
  have hop : (Request.get m).op letter J = .ok (.get q) := by simp only [Request.op, ho]; rfl
  obtain ⟨y, e, e1, _, e2, e3⟩ := (B.rest.req c hu).call hc hr hop hl (hf'.exec B.app) (fun _ h => List.mem_append_right _ h)
  cases e
  cases y with
  | error f =>
    cases f with
    | err e => exact .inl ⟨e, rfl⟩
    | panic => exact absurd rfl e1
  | ok y =>
    have b1 := B.enters _ hov.left
    obtain ⟨inc, v, h3, h4⟩ := B.rest.app.answered (Sound.appLife hl (hg _ hv)) B.app (b1.2.append (B.rest.enters _ b1.1 hov.right).2)
      ((B.linked c).outside hu) _ _ (e2 y rfl).1 (.inr ⟨q, rfl⟩)
    cases h3
    refine .inr ⟨inc, v, rfl, ?_⟩
    rwa [B.rest.same] at h4

/-- C76, plugins: the response to a plugin request that arrived after `A` is what its plugin returns, where its calls returned something
that is explained by the moments (`l`) since `A`, and the methods of its transaction succeeded. In particular its stream is reset only if
the code of the plugin itself panics. -/
theorem C76_rocks_plugin (hs : List ((ServerRequest → ServerResponse ⊕ Handler) × List SrvEv)) (s : Rocks) (hl : SrvLife X hs s)
    (hv : ∀ p ∈ hs, OkRequests (Access.ValuesOk (CanRead X)) p.1 p.2) (h1 h2 : List SrvEv) (l : List Rocks) (A S : Srv)
    (hx : Srv.Exec X false prep s h1 A) (ht : Srv.Through X false prep A h2 l S)
    (hov : OkRequests (Access.ValuesOk (CanRead X)) prep (h1 ++ h2)) (c : Nat) (m : PExecutePluginRequest) (p : PluginTask)
    (hc : SrvEv.call c (.plugin m) ∈ h2) (ho : pluginToRun J entries m = .ok p) (x : ServerResponse) (hr : SrvEv.ret c x ∈ h2) :
    ∃ y, x = .plugin (pluginResponse J describe reset y) ∧
      p.Got (fun a r => (∀ z, r = .ok z → Moment.Answered (Rocks.During X l) rocksEdgeLt a z) ∧ (a.isLib = false → ∃ z, r = .ok z)) y := by
  obtain ⟨gs, hl, hg⟩ := hl.app
  obtain ⟨g1, g2, lg, B⟩ := Srv.Both.mk' hx ht
  have hu := ht.from.unused hc
  have he := B.rest.app.from.exec B.app
  have b1 := B.enters _ hov.left
  have b2 := b1.2.append (B.rest.enters _ b1.1 hov.right).2
  have e : prep (.plugin m) = .inr (pluginHandler J describe reset p) := by simp only [rocksPrep, ho]
  rcases (B.rest.req c hu).done hc hr with h | ⟨t, e1, e2⟩
  · rw [e] at h; cases h
  rw [e] at e1; cases e1
  obtain ⟨y, k1, k2⟩ := e2.plugin (fun a h => (C72_rocks_errors gs s hl _ S.app he).1 c a _ (List.mem_append_right _ h) |>.1 (by simp [faultsOf]))
  refine ⟨y, k2, k1.mono fun a r h => ⟨fun z hz => ?_, fun ha => ?_⟩⟩
  · subst hz
    have h : AppEv.leave c a (.ok z) ∈ g2 := h
    have key : (a.isRead = true ∨ ∃ q, a = .lib (.get q)) → Moment.Answered (Rocks.During X l) rocksEdgeLt a z := fun hk => by
      rw [← B.rest.same]
      exact B.rest.app.answered (Sound.appLife hl (hg _ hv)) B.app b2 ((B.linked c).outside hu) a z h hk
    cases a with
    | lib op =>
      cases op with
      | get q => exact key (.inr ⟨q, rfl⟩)
      | _ => trivial
    | write w => trivial
    | _ => exact key (.inl rfl)
  · cases r with
    | ok z => exact ⟨z, rfl⟩
    | error f =>
      have := (C72_rocks_methods gs s hl (hg _ hv) _ S.app he b2 c a (.error (.err f)) (List.mem_append_right _ h) ha).2 rfl
      cases this

/-- C76, the state: at every moment a database in the state reached works exactly as it should. -/
theorem C76_rocks_sane (hs : List ((ServerRequest → ServerResponse ⊕ Handler) × List SrvEv)) (s : Rocks) (hl : SrvLife X hs s)
    (hv : ∀ p ∈ hs, OkRequests (Access.ValuesOk (CanRead X)) p.1 p.2) (h : List SrvEv) (S : Srv) (hx : Srv.Exec X io prep s h S)
    (hov : OkRequests (Access.ValuesOk (CanRead X)) prep h) :
    (rocksStoreFrom X (CanRead X) S.app.db).Sane (Sem.rocks X) rocksEdgeLt (fun _ => False) := by
  obtain ⟨gs, hl, hg⟩ := hl.app
  obtain ⟨g, h1, h2⟩ := C76_rocks_process s h S hx
  exact C72_rocks_sane gs s hl (hg _ hv) g S.app h1 (h2 _ hov)

/-- C76, durability: if the server is killed at any moment (and the machine lives), the next one finds the contents of that moment. -/
theorem C76_rocks_killed (hs : List ((ServerRequest → ServerResponse ⊕ Handler) × List SrvEv)) (s : Rocks) (hl : SrvLife X hs s)
    (h : List SrvEv) (S : Srv) (hx : Srv.Exec X true prep s h S) :
    ∃ t, SrvLife X (hs ++ [(prep, h)]) t ∧ t.kv = S.app.db.kv := by
  obtain ⟨gs, hl', _⟩ := hl.app
  obtain ⟨g, h1, _⟩ := C76_rocks_process s h S hx
  obtain ⟨t, h2, h3⟩ := C72_rocks_killed gs s hl' g S.app h1
  exact ⟨t, .again S.app.log.length hl hx (by rw [List.take_length]; exact h2), h3⟩

/-- C76, index builds: no I/O errors in the present run, and all values can be read back. `n` was not indexed at the start and no request
that arrived before `A` could index it. After an `index_property(n)` request that arrived after `A` has been answered with success,
the query for the owners of `n` lists every vertex (or edge) with this property that no request still open at `A`, or arriving later,
could create, whatever else happens meanwhile. -/
theorem C76_rocks_index (hs : List ((ServerRequest → ServerResponse ⊕ Handler) × List SrvEv)) (s : Rocks) (hl : SrvLife X hs s)
    (hv : ∀ p ∈ hs, OkRequests (Access.ValuesOk (CanRead X)) p.1 p.2) (n : Identifier) (hn : (Rocks.graph X s).indexed n = false)
    (o : Owner) (h1 h2 : List SrvEv) (A S : Srv) (hx : Srv.Exec X false prep s h1 A) (hf : Srv.From X false prep A h2 S)
    (hov : OkRequests (Access.ValuesOk (CanRead X)) prep (h1 ++ h2)) (hi : OkRequests (fun a => ¬ a.Indexes n) prep h1)
    (hc : OkOpen (fun a => ¬ a.Creates o) prep h1 h2) (hr : IndexedFor letter h2 n) :
    (rocksStoreFrom X (CanRead X) S.app.db).ListsOwner n o S.app.db := by
  obtain ⟨gs, hl, hg⟩ := hl.app
  obtain ⟨l, ht⟩ := hf.through
  obtain ⟨g1, g2, lg, B⟩ := Srv.Both.mk' hx ht
  have hf' := B.rest.app.from
  have b1 := B.enters _ hov.left
  have b2 := b1.2.append (B.rest.enters _ b1.1 hov.right).2
  -- what is open at `A`
  have open_ : A.Pending (fun a => ¬ a.Creates o) := by
    intro c t ht'
    obtain ⟨req, t0, k1, k2, k3⟩ := Left.exec hx c t ht'
    refine k3 _ (hc c req t0 (List.mem_append_left _ k1) (fun r hr' => ?_) k2)
    have a := (B.req c).at_
    rcases ht' with e | e
    · rw [e] at a; exact a.2 r hr'
    · rw [e] at a; exact a.2 r hr'
  have later : OkRequests (fun a => ¬ a.Creates o) prep h2 := by
    intro c req t k1 k2
    refine hc c req t (List.mem_append_right _ k1) (fun r hr' => ?_) k2
    have a := (B.req c).at_
    rw [hf.unused k1] at a
    exact a.2 r hr'
  obtain ⟨c, m, k1, k2, k3⟩ := hr
  refine C75_rocks X gs s hl (hg _ hv) n hn o g1 g2 A.app S.app B.app hf' b2 (B.enters _ hi).2
    (IndexedFor.by' (B.rest.req c (hf.unused k1)) k1 k2 k3) (fun c a p k hk => ?_) (B.rest.enters _ open_ later).2
  have L := B.linked c
  unfold Srv.Linked at L
  split at L <;> simp only [hk] at L
  · cases L
  · cases L
  · rename_i t e
    rcases L with h | ⟨a', k', crash, p', rfl, h⟩
    · cases h
    · cases h
      exact (open_ c _ (.inr e)).1
  · rcases L with h | h <;> cases h
  · rcases L with h | h <;> cases h

/-- C76, requests by themselves: if nobody but request `c`, which arrived after `A`, changes the database since `A` (others may read),
and it meets no I/O error, then what it does and answers is what the server does that handles one request at a time. -/
theorem C76_rocks_alone (s : Rocks) (h1 h2 : List SrvEv) (A S : Srv) (hx : Srv.Exec X false prep s h1 A) (c : Nat)
    (hu : Srv.Undisturbed X false prep c A h2 S) (req : ServerRequest) (x : ServerResponse) (hc : SrvEv.call c req ∈ h2)
    (hr : SrvEv.ret c x ∈ h2) :
    ∃ O, (S.app.db, x) = rocksServed X letter J describe reset entries O req A.app.db := by
  obtain ⟨g1, _, _, B⟩ := Srv.Both.mk' hx .nil
  have hun := hu.from.unused hc
  obtain ⟨l, ht⟩ := hu.from.through
  obtain ⟨_, _, _, B'⟩ := Srv.Both.mk' hx ht
  obtain ⟨H, L⟩ := AloneAt.undisturbed B.linked hun hu
  have fin : S.reqs c = .finished := by
    unfold AloneAt at H
    cases hq : S.reqs c with
    | unused => rw [hq] at H; exact absurd hr (H.2.2 x)
    | waiting => rw [hq] at H; exact absurd hr (H.2.2 x)
    | running => rw [hq] at H; exact absurd hr (H.2 x)
    | leaving => rw [hq] at H; exact absurd hr (H.2 x)
    | finished => rfl
  unfold AloneAt at H
  rw [fin] at H
  obtain ⟨req', k1, k2⟩ := H x hr
  cases (B'.rest.req c hun).once _ _ hc k1
  cases req with
  | ping =>
    rcases k2 with ⟨e1, e2⟩ | ⟨t0, O, e1, e2⟩
    · cases e1; exact ⟨fun _ => .sorted, by rw [e2]; rfl⟩
    · cases e1
  | lib rq =>
    cases ho : rq.op letter J with
    | error st =>
      rcases k2 with ⟨e1, e2⟩ | ⟨t0, O, e1, e2⟩
      · simp only [rocksPrep, ho] at e1
        cases e1
        refine ⟨fun _ => .sorted, ?_⟩
        have e0 := handle_eq letter J (rocksStore X) .sorted rq A.app.db
        rw [ho] at e0
        rw [e2]
        exact (congrArg (fun u : Rocks × Except Status Response => (u.1, ServerResponse.lib u.2)) e0.symm)
      · simp only [rocksPrep, ho] at e1
        cases e1
    | ok op =>
      rcases k2 with ⟨e1, e2⟩ | ⟨t0, O, e1, e2⟩
      · simp only [rocksPrep, ho] at e1; cases e1
      · simp only [rocksPrep, ho] at e1
        cases e1
        refine ⟨O, e2.symm.trans ?_⟩
        exact run_lib letter J rq op ho O A.app.db
  | plugin m =>
    cases ho : pluginToRun J entries m with
    | error st =>
      rcases k2 with ⟨e1, e2⟩ | ⟨t0, O, e1, e2⟩
      · simp only [rocksPrep, ho] at e1
        cases e1
        exact ⟨fun _ => .sorted, by simp only [rocksServed, ho, e2]⟩
      · simp only [rocksPrep, ho] at e1; cases e1
    | ok p =>
      rcases k2 with ⟨e1, e2⟩ | ⟨t0, O, e1, e2⟩
      · simp only [rocksPrep, ho] at e1; cases e1
      · simp only [rocksPrep, ho] at e1
        cases e1
        refine ⟨O, e2.symm.trans ?_⟩
        rw [run_plugin]
        simp only [rocksServed, ho]

end IndraDB
