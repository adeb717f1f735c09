import Verif.Props.RocksServer
import Verif.Props.SrvSched
import Verif.Props.Proto
/-
Cases for C76: executions of the server on a RocksDB datastore that meet the conditions of its theorems.
-/
namespace IndraDB
open Rocks

/-- Plugins: one that sets the property `foo` of vertex 1 to 7 and then counts the vertices; one that panics. -/
def W.plugins : Entries (Json → PluginTask) := fun name =>
  if name = "set" then some fun _ => .call (.write (.setVertexProperties [W.u 1] fooIdent (W.n 7))) fun _ =>
    .call .vertexCount fun r => match r with
      | .ok (.count n) => .ret (.ok (if n = 2 then .bool true else .null))
      | _ => .panic
  else if name = "bad" then some fun _ => .panic
  else none

/-- The server. -/
def W.served : ServerRequest → ServerResponse ⊕ Handler := rocksPrep asciiAlnum twoText (fun _ => "error") 0 W.plugins

/-- Vertex 1 is created. A plugin request and a request to create vertex 2 arrive; the plugin is about to set the property. -/
def W.morning : List Srv.Act :=
  [.arrive 0 (.lib (.createVertex ⟨some (W.u 1).toProto, some ⟨"foo"⟩⟩)), .begin 0] ++ List.replicate 5 (.step 0) ++ [.respond 0,
   .arrive 1 (.plugin ⟨"set", none⟩), .arrive 2 (.lib (.createVertex ⟨some (W.u 2).toProto, some ⟨"foo"⟩⟩)),
   .begin 1, .step 1, .step 1]

/-- `index_property(foo)` arrives and waits for the lock; vertex 2 is created; the property is written; the index is built; all is
answered. A query for the vertices with `foo` arrives before that, and is refused; one afterwards is answered. -/
def W.evening : List Srv.Act :=
  [.arrive 3 (.lib (.indexProperty ⟨some ⟨"foo"⟩⟩)), .arrive 4 (.lib (.get (.vertexWithPropertyPresence (some ⟨"foo"⟩)))), .begin 3, .step 3, .begin 2] ++
  List.replicate 5 (.step 2) ++ [.begin 4, .step 4] ++ List.replicate 3 (.step 4) ++ List.replicate 7 (.step 1) ++ List.replicate 10 (.step 3) ++ [.respond 1, .respond 2, .respond 3, .respond 4]

/-- The query again, and a request for a plugin that panics, whose client goes away. -/
def W.night : List Srv.Act :=
  [.arrive 5 (.lib (.get (.vertexWithPropertyPresence (some ⟨"foo"⟩)))), .arrive 6 (.plugin ⟨"bad", none⟩), .drop 6, .begin 5] ++
  List.replicate 7 (.step 5) ++ [.respond 5]

theorem W.op_ok {x : Except Status Op} {op : Op} (h : (match x with | .ok o => decide (o = op) | _ => false) = true) : x = .ok op := by
  split at h
  · rw [of_decide_eq_true h]
  · cases h

theorem W.op_create1 : (Request.createVertex ⟨some (W.u 1).toProto, some ⟨"foo"⟩⟩).op asciiAlnum twoText = .ok (.createVertex ⟨W.u 1, fooIdent⟩) := by
  exact W.op_ok (by decide +kernel)
theorem W.op_create2 : (Request.createVertex ⟨some (W.u 2).toProto, some ⟨"foo"⟩⟩).op asciiAlnum twoText = .ok (.createVertex ⟨W.u 2, fooIdent⟩) := by
  exact W.op_ok (by decide +kernel)
theorem W.op_index : (Request.indexProperty ⟨some ⟨"foo"⟩⟩).op asciiAlnum twoText = .ok (.indexProperty fooIdent) := by
  exact W.op_ok (by decide +kernel)
theorem W.op_get : (Request.get (.vertexWithPropertyPresence (some ⟨"foo"⟩))).op asciiAlnum twoText =
    .ok (.get (.vertexWithPropertyPresence fooIdent)) := by
  exact W.op_ok (by decide +kernel)

/-- What the handlers of these requests may do. -/
inductive W.Does : ServerRequest → Handler → Prop
  | create1 (k : Except Error Answer → ServerResponse) (crash) : W.Does (.lib (.createVertex ⟨some (W.u 1).toProto, some ⟨"foo"⟩⟩)) (.call (.lib (.createVertex ⟨W.u 1, fooIdent⟩)) (fun r => .ret (k r)) crash)
  | create2 (k : Except Error Answer → ServerResponse) (crash) : W.Does (.lib (.createVertex ⟨some (W.u 2).toProto, some ⟨"foo"⟩⟩)) (.call (.lib (.createVertex ⟨W.u 2, fooIdent⟩)) (fun r => .ret (k r)) crash)
  | index (k : Except Error Answer → ServerResponse) (crash) : W.Does (.lib (.indexProperty ⟨some ⟨"foo"⟩⟩)) (.call (.lib (.indexProperty fooIdent)) (fun r => .ret (k r)) crash)
  | get (k : Except Error Answer → ServerResponse) (crash) : W.Does (.lib (.get (.vertexWithPropertyPresence (some ⟨"foo"⟩)))) (.call (.lib (.get (.vertexWithPropertyPresence fooIdent))) (fun r => .ret (k r)) crash)
  | set (k : Except Error Answer → ServerResponse) (crash crash') : W.Does (.plugin ⟨"set", none⟩) (.call (.write (.setVertexProperties [W.u 1] fooIdent (W.n 7))) (fun _ => .call .vertexCount (fun r => .ret (k r)) crash) crash')
  | bad (r) : W.Does (.plugin ⟨"bad", none⟩) (.ret r)

theorem W.does {l : List Srv.Act} (hl : ∀ a ∈ l, a ∈ W.morning ++ W.evening ++ W.night) {c : Nat} {req : ServerRequest} {t : Handler}
    (hm : .arrive c req ∈ l) (hp : W.served req = .inr t) : W.Does req t := by
  have h := hl _ hm
  simp only [W.morning, W.evening, W.night, List.mem_append, List.mem_cons, List.mem_replicate, List.not_mem_nil, or_false, reduceCtorEq,
    false_or, and_false, Srv.Act.arrive.injEq] at h
  have lib : ∀ rq op, rq.op asciiAlnum twoText = .ok op → W.served (.lib rq) = .inr (libHandler twoText rq op) := fun rq op h => by
    simp only [W.served, rocksPrep, h]
  rcases h with (((⟨_, rfl⟩ | ⟨_, rfl⟩ | ⟨_, rfl⟩) | ⟨_, rfl⟩ | ⟨_, rfl⟩) | ⟨_, rfl⟩ | ⟨_, rfl⟩)
  · rw [lib _ _ W.op_create1] at hp; cases hp; exact .create1 _ _
  · cases hp
    have e : ∀ r : Except Error Answer, pluginHandler twoText (fun _ => "error") 0 (match r with
        | .ok (.count n) => .ret (.ok (if n = 2 then .bool true else .null))
        | _ => .panic) = .ret (.plugin (pluginResponse twoText (fun _ => "error") 0 (match r with
        | .ok (.count n) => .ok (.ok (if n = 2 then .bool true else .null))
        | _ => .error .panic))) := by
      intro r
      split <;> rfl
    have := W.Does.set (fun r => .plugin (pluginResponse twoText (fun _ => "error") 0 (match r with
        | .ok (.count n) => .ok (.ok (if n = 2 then .bool true else .null))
        | _ => .error .panic))) (.plugin (pluginResponse twoText (fun _ => "error") 0 (.error .panic)))
        (.plugin (pluginResponse twoText (fun _ => "error") 0 (.error .panic)))
    simp only [← e] at this
    exact this
  · rw [lib _ _ W.op_create2] at hp; cases hp; exact .create2 _ _
  · rw [lib _ _ W.op_index] at hp; cases hp; exact .index _ _
  · rw [lib _ _ W.op_get] at hp; cases hp; exact .get _ _
  · rw [lib _ _ W.op_get] at hp; cases hp; exact .get _ _
  · cases hp; exact .bad _

theorem W.Does.within {req : ServerRequest} {t : Handler} (h : W.Does req t) {ok : Access → Prop}
    (h1 : req = .lib (.createVertex ⟨some (W.u 1).toProto, some ⟨"foo"⟩⟩) → ok (.lib (.createVertex ⟨W.u 1, fooIdent⟩)))
    (h2 : ok (.lib (.createVertex ⟨W.u 2, fooIdent⟩))) (h3 : req = .lib (.indexProperty ⟨some ⟨"foo"⟩⟩) → ok (.lib (.indexProperty fooIdent)))
    (h4 : ok (.lib (.get (.vertexWithPropertyPresence fooIdent)))) (h5 : ok (.write (.setVertexProperties [W.u 1] fooIdent (W.n 7))))
    (h6 : ok .vertexCount) : t.Within ok := by
  cases h with
  | create1 => exact ⟨h1 rfl, fun _ => trivial⟩
  | create2 => exact ⟨h2, fun _ => trivial⟩
  | index => exact ⟨h3 rfl, fun _ => trivial⟩
  | get => exact ⟨h4, fun _ => trivial⟩
  | set => exact ⟨h5, fun _ => ⟨h6, fun _ => trivial⟩⟩
  | bad => trivial

theorem W.does_values {req : ServerRequest} {t : Handler} (h : W.Does req t) : t.Within (Access.ValuesOk (CanRead (W.cfg .debug))) := by
  refine h.within (fun _ => trivial) trivial (fun _ => trivial) trivial ?_ trivial
  exact W.canRead (by decide +kernel)

/-- Response `c` is as `p` says. -/
def W.said (c : Nat) (p : ServerResponse → Bool) (h : List SrvEv) : Bool := h.any fun e => match e with
  | .ret c' r => decide (c' = c) && p r
  | _ => false

theorem W.said_of {c : Nat} {p : ServerResponse → Bool} {h : List SrvEv} (hs : W.said c p h = true) : ∃ r, SrvEv.ret c r ∈ h ∧ p r = true := by
  obtain ⟨e, he, hb⟩ := List.any_eq_true.1 hs
  split at hb
  · simp only [Bool.and_eq_true, decide_eq_true_eq] at hb
    obtain ⟨rfl, hb⟩ := hb
    exact ⟨_, he, hb⟩
  · cases hb

/-- Request `c` arrived. -/
def W.came (c : Nat) (h : List SrvEv) : Bool := h.any fun e => match e with
  | .call c' _ => decide (c' = c)
  | _ => false

theorem W.came_of {c : Nat} {h : List SrvEv} (hs : W.came c h = true) : ∃ req, SrvEv.call c req ∈ h := by
  obtain ⟨e, he, hb⟩ := List.any_eq_true.1 hs
  split at hb
  · simp only [decide_eq_true_eq] at hb
    exact ⟨_, hb ▸ he⟩
  · cases hb

/-- The response to `index_property`. -/
def W.isEmpty : ServerResponse → Bool
  | .lib (.ok .empty) => true
  | _ => false
theorem W.isEmpty_of {r : ServerResponse} (h : W.isEmpty r = true) : r = .lib (.ok .empty) := by
  unfold W.isEmpty at h
  split at h
  · rfl
  · cases h

/-- The query was refused because the property is not indexed. -/
def W.isRefused : ServerResponse → Bool
  | .lib (.ok (.stream [.error (.internal (.err .notIndexed))])) => true
  | _ => false
theorem W.isRefused_of {r : ServerResponse} (h : W.isRefused r = true) : r = .lib (.ok (.stream [.error (.internal (.err .notIndexed))])) := by
  unfold W.isRefused at h
  split at h
  · rfl
  · cases h

/-- The query was answered. -/
def W.isStream : ServerResponse → Bool
  | .lib (.ok (.stream [.ok _])) => true
  | _ => false
theorem W.isStream_of {r : ServerResponse} (h : W.isStream r = true) : ∃ o, r = .lib (.ok (.stream [.ok o])) := by
  unfold W.isStream at h
  split at h
  · exact ⟨_, rfl⟩
  · cases h

/-- The plugin returned a value. -/
def W.isValue : ServerResponse → Bool
  | .plugin (.ok _) => true
  | _ => false
theorem W.isValue_of {r : ServerResponse} (h : W.isValue r = true) : ∃ v, r = .plugin (.ok v) := by
  unfold W.isValue at h
  split at h
  · exact ⟨_, rfl⟩
  · cases h

/-- What is checked of the first two parts. -/
def W.observed (h1 : List SrvEv) (A : Srv) (h2 : List SrvEv) (S : Srv) : Bool :=
  (W.said 0 (fun _ => true) h1 && (W.came 3 h2 && W.came 1 h1)) && (W.said 3 W.isEmpty h2 && (W.said 4 W.isRefused h2 && W.said 1 W.isValue h2)) &&
  (decide ((Rocks.graph (W.cfg .debug) A.app.db).vprop (W.u 1) fooIdent = none) &&
   decide ((Rocks.graph (W.cfg .debug) S.app.db).vprop (W.u 1) fooIdent = some (W.n 7)))

/-- Vertex 1 has been created when `index_property(foo)` arrives; a plugin sets its property meanwhile, vertex 2 is created meanwhile,
and a query is refused since the index is not built yet: the conditions of `C76_rocks_index` hold, and vertex 1 is found. -/
example : ∃ h1 A h2 S, Srv.Exec (W.cfg .debug) false W.served Rocks.init h1 A ∧ Srv.From (W.cfg .debug) false W.served A h2 S ∧
    SrvLife (W.cfg .debug) [] Rocks.init ∧ OkRequests (Access.ValuesOk (CanRead (W.cfg .debug))) W.served (h1 ++ h2) ∧
    (Rocks.graph (W.cfg .debug) Rocks.init).indexed fooIdent = false ∧
    OkRequests (fun a => ¬ a.Indexes fooIdent) W.served h1 ∧ OkOpen (fun a => ¬ a.Creates (.vertex (W.u 1))) W.served h1 h2 ∧
    IndexedFor asciiAlnum h2 fooIdent ∧
    SrvEv.ret 4 (.lib (.ok (.stream [.error (.internal (.err .notIndexed))]))) ∈ h2 ∧ (∃ v, SrvEv.ret 1 (.plugin (.ok v)) ∈ h2) ∧
    (Rocks.graph (W.cfg .debug) A.app.db).vprop (W.u 1) fooIdent = none ∧
    (Rocks.graph (W.cfg .debug) S.app.db).vprop (W.u 1) fooIdent = some (W.n 7) ∧
    (rocksStoreFrom (W.cfg .debug) (CanRead (W.cfg .debug)) S.app.db).ListsOwner fooIdent (.vertex (W.u 1)) S.app.db := by
  obtain ⟨h1, A, h2, S, hx, hf, a1, a2, hp⟩ := Srv.scheduled (X := W.cfg .debug) (prep := W.served) (io := false) (s := Rocks.init)
    W.morning W.evening W.observed (by decide +kernel) (by decide +kernel) (by decide +kernel)
  simp only [W.observed, Bool.and_eq_true, decide_eq_true_eq] at hp
  obtain ⟨⟨⟨p0, p3', _⟩, p3, p4, p1⟩, q1, q2⟩ := hp
  have all : ∀ c req t, SrvEv.call c req ∈ h1 ++ h2 → W.served req = .inr t → W.Does req t := by
    intro c req t hm ht
    have : Srv.Act.arrive c req ∈ W.morning ++ W.evening := by
      rcases List.mem_append.1 hm with h | h
      · exact List.mem_append_left _ (a1 _ _ h)
      · exact List.mem_append_right _ (a2 _ _ h)
    exact W.does (l := W.morning ++ W.evening) (fun a h => List.mem_append_left _ h) this ht
  have ov : OkRequests (Access.ValuesOk (CanRead (W.cfg .debug))) W.served (h1 ++ h2) := fun c req t hm ht => W.does_values (all c req t hm ht)
  have oi : OkRequests (fun a => ¬ a.Indexes fooIdent) W.served h1 := by
    intro c req t hm ht
    refine (all c req t (List.mem_append_left _ hm) ht).within (fun _ => nofun) nofun (fun e => ?_) nofun nofun nofun
    subst e
    have := a1 _ _ hm
    simp [W.morning] at this
  have oc : OkOpen (fun a => ¬ a.Creates (.vertex (W.u 1))) W.served h1 h2 := by
    intro c req t hm hr ht
    have hd := all c req t hm ht
    refine hd.within (fun e => ?_) (fun h => ?_) (fun _ => nofun) nofun nofun nofun
    · subst e
      have h0 : c = 0 := by
        rcases List.mem_append.1 hm with h | h
        · have := a1 _ _ h
          simp [W.morning, W.u, Uuid.toProto] at this
          exact this
        · have := a2 _ _ h
          simp [W.evening] at this
      subst h0
      obtain ⟨r, hr', _⟩ := W.said_of p0
      exact absurd hr' (hr r)
    · exact absurd h (by simp [Access.Creates, Op.Creates, W.u])
  have oe : IndexedFor asciiAlnum h2 fooIdent := by
    obtain ⟨r, hr, he⟩ := W.said_of p3
    cases W.isEmpty_of he
    obtain ⟨req, hq⟩ := W.came_of p3'
    have e : req = .lib (.indexProperty ⟨some ⟨"foo"⟩⟩) := by
      have := a2 _ _ hq
      simpa [W.evening] using this
    subst e
    refine ⟨3, _, hq, ?_, hr⟩
    have := W.op_index
    simp only [Request.op] at this
    cases hm : (⟨some ⟨"foo"⟩⟩ : PIndexPropertyRequest).conv asciiAlnum with
    | error e => rw [hm] at this; cases this
    | ok n => rw [hm] at this; cases this; rfl
  obtain ⟨r4, s4, e4⟩ := W.said_of p4
  cases W.isRefused_of e4
  obtain ⟨r1, s1, e1⟩ := W.said_of p1
  obtain ⟨v, rfl⟩ := W.isValue_of e1
  exact ⟨h1, A, h2, S, hx, hf, .new rfl, ov, rfl, oi, oc, oe, s4, ⟨v, s1⟩, q1, q2,
    C76_rocks_index [] _ (.new rfl) (fun _ h => nomatch h) fooIdent rfl (.vertex (W.u 1)) h1 h2 A S hx hf ov oi oc oe⟩

/-- What is checked of the last part. -/
def W.atNight (h1 : List SrvEv) (_ : Srv) (h2 : List SrvEv) (_ : Srv) : Bool :=
  (W.came 3 h1 && W.said 3 W.isEmpty h1) && (W.came 5 h2 && W.said 5 W.isStream h2)

/-- Now the query is answered: the conditions of `C76_rocks_names`, `C76_rocks_reasons` and `C76_rocks_reports` hold. -/
example : ∃ h1 A h2 l S m q o, Srv.Exec (W.cfg .debug) false W.served Rocks.init h1 A ∧ Srv.Through (W.cfg .debug) false W.served A h2 l S ∧
    SrvLife (W.cfg .debug) [] Rocks.init ∧ OkRequests (Access.ValuesOk (CanRead (W.cfg .debug))) W.served (h1 ++ h2) ∧
    SrvEv.call 5 (.lib (.get m)) ∈ h2 ∧ m.conv asciiAlnum twoText = .ok q ∧ SrvEv.ret 5 (.lib (.ok (.stream [.ok o]))) ∈ h2 ∧
    (∀ n ∈ (Op.get q).lookups, (Rocks.graph (W.cfg .debug) Rocks.init).indexed n = true ∨ IndexedFor asciiAlnum h1 n) ∧
    ∃ v, o = v.toProto twoText ∧ Moment.Observed (Rocks.During (W.cfg .debug) l) rocksEdgeLt q [] v := by
  obtain ⟨h1, A, h2, S, hx, hf, a1, a2, hp⟩ := Srv.scheduled (X := W.cfg .debug) (prep := W.served) (io := false) (s := Rocks.init)
    (W.morning ++ W.evening) W.night W.atNight (by decide +kernel) (by decide +kernel) (by decide +kernel)
  simp only [W.atNight, Bool.and_eq_true] at hp
  obtain ⟨⟨p3', p3⟩, p5', p5⟩ := hp
  have ov : OkRequests (Access.ValuesOk (CanRead (W.cfg .debug))) W.served (h1 ++ h2) := by
    intro c req t hm ht
    have : Srv.Act.arrive c req ∈ W.morning ++ W.evening ++ W.night := by
      rcases List.mem_append.1 hm with h | h
      · exact List.mem_append_left _ (a1 _ _ h)
      · exact List.mem_append_right _ (a2 _ _ h)
    exact W.does_values (W.does (fun _ h => h) this ht)
  have oe : IndexedFor asciiAlnum h1 fooIdent := by
    obtain ⟨r, hr, he⟩ := W.said_of p3
    cases W.isEmpty_of he
    obtain ⟨req, hq⟩ := W.came_of p3'
    have e : req = .lib (.indexProperty ⟨some ⟨"foo"⟩⟩) := by
      have := a1 _ _ hq
      simpa [W.evening, W.morning] using this
    subst e
    refine ⟨3, _, hq, ?_, hr⟩
    have := W.op_index
    simp only [Request.op] at this
    cases hm : (⟨some ⟨"foo"⟩⟩ : PIndexPropertyRequest).conv asciiAlnum with
    | error e => rw [hm] at this; cases this
    | ok n => rw [hm] at this; cases this; rfl
  obtain ⟨req, hq⟩ := W.came_of p5'
  have e : req = .lib (.get (.vertexWithPropertyPresence (some ⟨"foo"⟩))) := by
    have := a2 _ _ hq
    simpa [W.night] using this
  subst e
  have cv : (PQuery.vertexWithPropertyPresence (some ⟨"foo"⟩)).conv asciiAlnum twoText = .ok (.vertexWithPropertyPresence fooIdent) := by
    have := W.op_get
    simp only [Request.op] at this
    cases hm : (PQuery.vertexWithPropertyPresence (some ⟨"foo"⟩)).conv asciiAlnum twoText with
    | error e => rw [hm] at this; cases this
    | ok n => rw [hm] at this; cases this; rfl
  obtain ⟨r, hr, er⟩ := W.said_of p5
  obtain ⟨o, rfl⟩ := W.isStream_of er
  obtain ⟨l, ht⟩ := hf.through
  refine ⟨h1, A, h2, l, S, _, _, o, hx, ht, .new rfl, ov, hq, cv, hr, fun n hn => ?_, ?_⟩
  · simp [Op.lookups, Query.lookups] at hn
    subst hn
    exact .inr oe
  · rcases C76_rocks_reports [] _ (.new rfl) (fun _ h => nomatch h) h1 h2 l A S hx ht ov 5 _ _ hq cv _ hr with ⟨e, h⟩ | ⟨inc, v, h, hw⟩
    · cases h
    · injection h with h
      injection h with h
      cases inc with
      | nil =>
        simp only [List.nil_append, List.map_cons, List.map_nil] at h
        injection h with h
        injection h with h
        exact ⟨v, h, hw⟩
      | cons a inc => simp at h

/-- While the plugin request waits, vertex 2 is created with request 7, and a query runs. -/
def W.meanwhile : List Srv.Act :=
  [.arrive 7 (.lib (.createVertex ⟨some (W.u 2).toProto, some ⟨"foo"⟩⟩)), .arrive 4 (.lib (.get (.vertexWithPropertyPresence (some ⟨"foo"⟩)))),
   .begin 7, .begin 4, .step 4] ++ List.replicate 5 (.step 7) ++ List.replicate 3 (.step 4) ++ [.respond 4, .respond 7]

/-- The conditions of `C76_rocks_alone` hold. -/
example : ∃ h1 A h2 S x, Srv.Exec (W.cfg .debug) false W.served Rocks.init h1 A ∧ Srv.Undisturbed (W.cfg .debug) false W.served 7 A h2 S ∧
    SrvEv.call 7 (.lib (.createVertex ⟨some (W.u 2).toProto, some ⟨"foo"⟩⟩)) ∈ h2 ∧ SrvEv.ret 7 x ∈ h2 ∧
    (Rocks.graph (W.cfg .debug) A.app.db).vertex (W.u 2) = none ∧ (Rocks.graph (W.cfg .debug) S.app.db).vertex (W.u 2) = some fooIdent ∧
    ∃ O, (S.app.db, x) = rocksServed (W.cfg .debug) asciiAlnum twoText (fun _ => "error") 0 W.plugins O
      (.lib (.createVertex ⟨some (W.u 2).toProto, some ⟨"foo"⟩⟩)) A.app.db := by
  obtain ⟨h1, A, h2, S, hx, hf, a1, a2, hp⟩ := Srv.scheduled_of (X := W.cfg .debug) (prep := W.served) (io := false) (s := Rocks.init) 7
    W.morning W.meanwhile (fun h1 A h2 S => (W.came 7 h2 && W.said 7 (fun _ => true) h2) &&
      (decide ((Rocks.graph (W.cfg .debug) A.app.db).vertex (W.u 2) = none) && decide ((Rocks.graph (W.cfg .debug) S.app.db).vertex (W.u 2) = some fooIdent)))
    (by decide +kernel) (by decide +kernel) (by decide +kernel)
  simp only [Bool.and_eq_true, decide_eq_true_eq] at hp
  obtain ⟨⟨p1, p2⟩, p3, p4⟩ := hp
  obtain ⟨req, hq⟩ := W.came_of p1
  obtain ⟨x, hr, _⟩ := W.said_of p2
  have e : req = .lib (.createVertex ⟨some (W.u 2).toProto, some ⟨"foo"⟩⟩) := by
    have := a2 _ _ hq
    simpa [W.meanwhile] using this
  subst e
  exact ⟨h1, A, h2, S, x, hx, hf, hq, hr, p3, p4, C76_rocks_alone _ h1 h2 A S hx 7 hf _ x hq hr⟩

/-- The conditions of `C76_rocks_never` hold: nobody indexes `foo`, and the query is refused. -/
example : ∃ h S r, Srv.Exec (W.cfg .debug) false W.served Rocks.init h S ∧ (Rocks.graph (W.cfg .debug) Rocks.init).indexed fooIdent = false ∧
    OkRequests (fun a => ¬ a.Indexes fooIdent) W.served h ∧ SrvEv.call 4 (.lib (.get (.vertexWithPropertyPresence (some ⟨"foo"⟩)))) ∈ h ∧
    SrvEv.ret 4 (.lib r) ∈ h ∧ ∃ e, Response.faults r = [.err e] := by
  obtain ⟨h1, A, h2, S, hx, hf, a1, a2, hp⟩ := Srv.scheduled (X := W.cfg .debug) (prep := W.served) (io := false) (s := Rocks.init)
    (W.morning ++ W.meanwhile) [] (fun h1 _ _ _ => W.came 4 h1 && W.said 4 W.isRefused h1)
    (by decide +kernel) (by decide +kernel) (by decide +kernel)
  simp only [Bool.and_eq_true] at hp
  obtain ⟨p1, p2⟩ := hp
  obtain ⟨req, hq⟩ := W.came_of p1
  obtain ⟨r, hr, er⟩ := W.said_of p2
  cases W.isRefused_of er
  have e : req = .lib (.get (.vertexWithPropertyPresence (some ⟨"foo"⟩))) := by
    have := a1 _ _ hq
    simpa [W.meanwhile, W.morning] using this
  subst e
  have oi : OkRequests (fun a => ¬ a.Indexes fooIdent) W.served h1 := by
    intro c req t hm ht
    have h0 := a1 _ _ hm
    have : ∃ c', Srv.Act.arrive c' req ∈ W.morning ++ W.evening ++ W.night := by
      rcases List.mem_append.1 h0 with h | h
      · exact ⟨c, List.mem_append_left _ (List.mem_append_left _ h)⟩
      · simp only [W.meanwhile, List.mem_append, List.mem_cons, List.mem_replicate, List.not_mem_nil, or_false, reduceCtorEq,
          false_or, and_false, Srv.Act.arrive.injEq] at h
        rcases h with ⟨_, rfl⟩ | ⟨_, rfl⟩
        · exact ⟨2, by simp [W.morning]⟩
        · exact ⟨4, by simp [W.evening]⟩
    obtain ⟨c', hc'⟩ := this
    refine (W.does (fun _ h => h) hc' ht).within (fun _ => nofun) nofun (fun e => ?_) nofun nofun nofun
    subst e
    simp [W.morning, W.meanwhile] at h0
  exact ⟨h1, A, _, hx, rfl, oi, hq, hr, (C76_rocks_never [] _ (.new rfl) h1 A hx fooIdent rfl oi).2 4 _ _ _ hq W.op_get (by simp [Op.lookups, Query.lookups]) hr⟩

end IndraDB
