import Verif.Proofs.Stuck
import Verif.Proofs.UnreadConc
import Verif.Props.RocksServer
/-
C78: a RocksDB database that contains values it cannot read back. `d` is any reader that reads everything the datastore can read, as
the datastore does, and the rest somehow; the contents of the database are observed with it.
-/
namespace IndraDB
open Rocks

variable (X : Cfg)

/-- C78: a new database, whatever calls are made. -/
theorem C78_rocks (d : Bytes → Option Json) (hd : X.Reader d) : AnyValues X d Rocks.init := Unread.anyValues hd Inv.init

/-- In particular, index queries fail exactly for names that were never given to `index_property`. -/
theorem C78_rocks_names (d : Bytes → Option Json) (hd : X.Reader d) :
    (rocksStoreAny X d Rocks.init).NotIndexedExact ∧ (rocksStoreAny X d Rocks.init).NotIndexedPipedExact :=
  ⟨Unread.notIndexed hd, Unread.notIndexedPiped hd⟩

namespace Unread
variable {X} {d : Bytes → Option Json}

theorem inv_sound (hd : X.Reader d) {V : Json → Prop} {s : Rocks} (h : Sound X V s.kv) : Inv (X.reading d) s := by
  have w := h.wf
  refine ⟨⟨w.vertices, w.edges, w.reversed, w.mirror, w.vprops, w.eprops, w.vindex, w.eindex⟩, fun k v hv => ?_, fun k v hv => ?_⟩
  · obtain ⟨x, e, _⟩ := h.values.vprops k v hv
    exact ⟨x, e, canRead hd x⟩
  · obtain ⟨x, e, _⟩ := h.values.eprops k v hv
    exact ⟨x, e, canRead hd x⟩

theorem cinv_run (hd : X.Reader d) {u : Rocks} (hist : List (IdentOrder × Op)) : ∀ s, CInv (X.reading d) s → MetaOk s →
    (rocksStoreAny X d u).Along (fun g op => op.IndexSafe (X.reading d) g) hist s → (rocksStoreAny X d u).IndexingWorks hist s →
    CInv (X.reading d) ((rocksStoreAny X d u).run hist s) ∧ MetaOk ((rocksStoreAny X d u).run hist s) := by
  induction hist with
  | nil => exact fun _ h hm _ _ => ⟨h, hm⟩
  | cons a r ih =>
    obtain ⟨O, op⟩ := a
    intro s h hm hs hw
    have key : CInv (X.reading d) (Rocks.step X O op s).1 ∧ MetaOk (Rocks.step X O op s).1 := by
      rcases step_or hd O op s with e | e
      · rw [e]
        exact ⟨h.step O op (okOp hd op) hs.1, (dbStep_spec O op s h.inv (okOp hd op)).inv.md hm⟩
      · have hne : ∀ n, op ≠ .indexProperty n := by
          intro n hn
          have h2 : (Rocks.step X O op s).2 = .ok .unit := hw.1 ⟨n, hn⟩
          rw [e] at h2; cases h2
        rw [(step_error O op s e).2 hne]; exact ⟨h, hm⟩
    exact ih _ key.1 key.2 hs.2 hw.2

theorem indexExact {u s : Rocks} (h : CInv (X.reading d) s) :
    (rocksStoreAny X d u).IndexExactAt (fun w x => X.H w.stream == X.H x.stream) True s := by
  have key := (conformsFrom (X.reading d) s h.inv).indexExactAt (reach s) (s := s) (nd := True) (fun _ _ => h.index_nodup) (fun _ => h.index_view)
  have same : ∀ (O : IdentOrder) (q : Query), ¬ q.AsksProperties → (rocksStoreAny X d u).value O q s = (T X d s).value O q s :=
    fun O q hq => (same_plain s q hq).value O s
  intro O n hn
  obtain ⟨k1, k2, k3, k4⟩ := key O n hn
  refine ⟨?_, ?_, fun x => ?_, fun x => ?_⟩
  · rw [same O (.vertexWithPropertyPresence n) (fun h => h)]; exact k1
  · rw [same O (.edgeWithPropertyPresence n) (fun h => h)]; exact k2
  · rw [same O (.vertexWithPropertyValue n x) (fun h => h)]; exact k3 x
  · rw [same O (.edgeWithPropertyValue n x) (fun h => h)]; exact k4 x

theorem lists {u s : Rocks} {n : Identifier} (h : (T X d s).ListsOwners n s) : (rocksStoreAny X d u).ListsOwners n s := by
  have same : ∀ (O : IdentOrder) (q : Query), ¬ q.AsksProperties → (rocksStoreAny X d u).value O q s = (T X d s).value O q s :=
    fun O q hq => (same_plain s q hq).value O s
  intro O
  obtain ⟨k1, k2⟩ := h O
  exact ⟨by rw [same O (.vertexWithPropertyPresence n) (fun h => h)]; exact k1,
    by rw [same O (.edgeWithPropertyPresence n) (fun h => h)]; exact k2⟩

end Unread

/-- C78, indexes: along histories that keep to `Op.IndexSafe` and in which no `index_property` is refused, index queries list exactly
the owners with the property, readable or not. -/
theorem C78_rocks_index (d : Bytes → Option Json) (hd : X.Reader d) (hist : List (IdentOrder × Op))
    (ha : (rocksStoreAny X d Rocks.init).Along (fun g op => op.IndexSafe (X.reading d) g) hist Rocks.init)
    (hw : (rocksStoreAny X d Rocks.init).IndexingWorks hist Rocks.init) :
    (rocksStoreAny X d Rocks.init).IndexExactAt (fun w x => X.H w.stream == X.H x.stream) True
      ((rocksStoreAny X d Rocks.init).run hist Rocks.init) :=
  Unread.indexExact (Unread.cinv_run hd hist _ CInv.init MetaOk.init ha hw).1

/-- C78 in any life of a database: tasks run library calls, transactions and plugins that overlap, the process meets I/O errors, is killed
at any moment and started again; and any values are written. In whatever state that leaves the database, C78 holds from then on. -/
theorem C78_rocks_app (d : Bytes → Option Json) (hd : X.Reader d) (hs : List (List AppEv)) (s : Rocks) (hl : AppLife X hs s)
    (h : List AppEv) (S : App) (hx : App.Exec X io s h S) : AnyValues X d S.db := by
  have H := laxRules.exec (Sound.appLife hl (fun h _ => OkEnters.any h)) hx (OkEnters.any h)
  exact Unread.anyValues hd (Unread.inv_sound hd H.db)

/-- The same for the server. -/
theorem C78_rocks_server (d : Bytes → Option Json) (hd : X.Reader d) (hs : List ((ServerRequest → ServerResponse ⊕ Handler) × List SrvEv))
    (s : Rocks) (hl : SrvLife X hs s) (prep : ServerRequest → ServerResponse ⊕ Handler) (h : List SrvEv) (S : Srv)
    (hx : Srv.Exec X io prep s h S) : AnyValues X d S.app.db := by
  obtain ⟨gs, hl, _⟩ := hl.app
  obtain ⟨g1, _, _, B⟩ := Srv.Both.mk' hx .nil
  exact C78_rocks_app X d hd gs s hl g1 S.app B.app

theorem Rocks.AppSessions.reading {X : Cfg} {d : Bytes → Option Json} (hd : X.Reader d) {s t : Rocks} {hs : List (List AppEv)}
    (h : AppSessions X s hs t) : AppSessions (X.reading d) s hs t := by
  induction h with
  | none => exact .none
  | again k _ hx hb hn ih =>
    obtain ⟨S', h1, h2⟩ := hx.reading hd
    exact .again k ih h1 (by rw [h2.log]; exact hb) (by rw [h2.log]; exact hn)

/-- C78, indexes under concurrency: once `n` is indexed by such a history of calls, and whatever such processes do afterwards, with whatever values,
the query for the owners of `n` lists every vertex and every edge with the property, readable or not. -/
theorem C78_rocks_index_app (d : Bytes → Option Json) (hd : X.Reader d) (n : Identifier) (hist : List (IdentOrder × Op))
    (ha : (rocksStoreAny X d Rocks.init).Along (fun g op => op.IndexSafe (X.reading d) g) hist Rocks.init)
    (hw : (rocksStoreAny X d Rocks.init).IndexingWorks hist Rocks.init)
    (hn : ((rocksStoreAny X d Rocks.init).run hist Rocks.init).indexed.contains n = true)
    (hs : List (List AppEv)) (t : Rocks) (hl : AppSessions X ((rocksStoreAny X d Rocks.init).run hist Rocks.init) hs t)
    (h : List AppEv) (S : App) (hx : App.Exec X io t h S) : (rocksStoreAny X d S.db).ListsOwners n S.db := by
  have C := Unread.cinv_run hd hist _ CInv.init MetaOk.init ha hw
  have K := (kept_of_cinv C.1 C.2 hn C.1.inv.values).mono (R' := fun _ _ => True) (fun _ _ _ => trivial)
  have E : Enters (X.reading d) (CanRead (X.reading d)) (fun _ _ => True) := fun _ _ _ _ => trivial
  have ok : ∀ h, OkEnters (Access.ValuesOk (CanRead (X.reading d))) h := fun h => (OkEnters.any h).mono (Access.ValuesOk.mono (fun x _ => Unread.canRead hd x))
  obtain ⟨S', h1, h2⟩ := hx.reading hd
  have := ((K.appSessions E (fun _ h => h) (hl.reading hd) (fun h _ => ok h)).app E (fun _ h => h) h1 (ok h)).1.lists
  rw [h2.db] at this
  exact Unread.lists this

/-- If encoding loses nothing, there is a reader that reads the unreadable values as what they are. -/
theorem C78_reader (hinj : ∀ v w, X.codec.enc v = X.codec.enc w → v = w) :
    ∃ d, X.Reader d ∧ ∀ v, ¬ CanRead X v → d (X.codec.enc v) = some v := by
  classical
  let d : Bytes → Option Json := fun b =>
    match X.codec.dec b with
    | some v => some v
    | none => if h : ∃ v, X.codec.enc v = b then some h.choose else some .null
  have hd : ∀ b v, X.codec.dec b = some v → d b = some v := fun b v h => by simp only [d, h]
  have hn : ∀ b, X.codec.dec b = none → d b = if h : ∃ v, X.codec.enc v = b then some h.choose else some .null :=
    fun b h => by simp only [d, h]
  refine ⟨d, ⟨hd, fun b => ?_⟩, fun v hv => ?_⟩
  · cases h : X.codec.dec b with
    | some v => exact ⟨v, hd b v h⟩
    | none =>
      rw [hn b h]
      split
      · exact ⟨_, rfl⟩
      · exact ⟨_, rfl⟩
  · have h : X.codec.dec (X.codec.enc v) = none := by
      cases h : X.codec.dec (X.codec.enc v) with
      | none => rfl
      | some w => exact absurd ⟨w, h⟩ hv
    have hex : ∃ w, X.codec.enc w = X.codec.enc v := ⟨v, rfl⟩
    rw [hn _ h, dif_pos hex]
    exact congrArg some (hinj _ _ hex.choose_spec)

/-! ### An example: the value `9` cannot be read in the example configuration. -/
namespace W

/-- A vertex whose indexed property cannot be read, and one without. -/
def dark : List (IdentOrder × Op) :=
  W.calm [.indexProperty W.p, .createVertex ⟨W.u 1, W.t⟩, .createVertex ⟨W.u 2, W.t⟩, .setProperties (.specificVertex [W.u 1]) W.p (W.n 9)]

def darkState : Rocks := (rocksStoreAny (W.cfg .debug) (Unread.rd (W.cfg .debug) (W.n 9)) Rocks.init).run W.dark Rocks.init

theorem dark_reach : (rocksStoreAny (W.cfg .debug) (Unread.rd (W.cfg .debug) (W.n 9)) Rocks.init).Reach W.darkState :=
  ⟨W.dark, rfl, rfl, fun _ _ => Unread.okAny _⟩

theorem dark_hidden : HiddenV (W.cfg .debug) W.darkState (W.u 1) W.p :=
  ⟨(W.cfg .debug).codec.enc (W.n 9), by decide +kernel, by decide +kernel⟩

/-- `AnyValues.refused` in this state: the value cannot be read, replaced or deleted with its owner; the other vertex can. -/
example :
    let S := rocksStoreAny (W.cfg .debug) (Unread.rd (W.cfg .debug) (W.n 9)) W.darkState
    S.value .sorted (.pipeProperty .allVertex (some W.p)) W.darkState = .error (.err .datastore) ∧
    S.Refuses .sorted (.setProperties .allVertex W.p (W.n 1)) W.darkState ∧
    S.Refuses .sorted (.delete (.specificVertex [W.u 1])) W.darkState ∧
    S.Does .sorted (.delete (.specificVertex [W.u 2])) W.darkState ((S.graph W.darkState).rocksDropVertices [W.u 2]) := by
  have R := (C78_rocks (W.cfg .debug) _ (Unread.rd_reader (W.n 9))).refused _ W.dark_reach .sorted
  have v : (rocksStoreAny (W.cfg .debug) (Unread.rd (W.cfg .debug) (W.n 9)) W.darkState).value .sorted .allVertex W.darkState =
    .ok (.vertices [⟨W.u 1, W.t⟩, ⟨W.u 2, W.t⟩]) := by decide +kernel
  have v1 : (rocksStoreAny (W.cfg .debug) (Unread.rd (W.cfg .debug) (W.n 9)) W.darkState).value .sorted (.specificVertex [W.u 1]) W.darkState =
    .ok (.vertices [⟨W.u 1, W.t⟩]) := by decide +kernel
  have v2 : (rocksStoreAny (W.cfg .debug) (Unread.rd (W.cfg .debug) (W.n 9)) W.darkState).value .sorted (.specificVertex [W.u 2]) W.darkState =
    .ok (.vertices [⟨W.u 2, W.t⟩]) := by decide +kernel
  refine ⟨(R.vertexProperties _ _ (some W.p) v).1 ⟨_, List.mem_cons_self, W.dark_hidden⟩,
    (R.setVertices _ _ W.p (W.n 1) v).1 ⟨by decide +kernel, _, List.mem_cons_self, W.dark_hidden⟩,
    (R.deleteVertices _ _ v1).1 ⟨_, List.mem_cons_self, .inl ⟨_, W.dark_hidden⟩⟩, (R.deleteVertices _ _ v2).2 ?_⟩
  rintro ⟨v, hv, h⟩
  simp only [List.mem_singleton] at hv
  subst hv
  rcases h with ⟨n, b, h, _⟩ | ⟨e, _, _, n, b, h, _⟩
  · have hl : (W.darkState.kv .vertexProperties).toList = [(vpKey (W.cfg .debug) (W.u 1) W.p, (W.cfg .debug).codec.enc (W.n 9))] := by
      decide +kernel
    have := SMap.mem_toList.2 h
    rw [hl] at this
    simp only [List.mem_singleton, Prod.mk.injEq] at this
    exact absurd (vpKey_inj.1 this.1).1 (by decide +kernel)
  · have hl : (W.darkState.kv .edgeProperties).toList = [] := by decide +kernel
    have := SMap.mem_toList.2 h
    rw [hl] at this
    cases this

/-- `AnyValues.stuck` applies. -/
example (hist : List (IdentOrder × Op)) :
    (graph (W.cfg .debug) ((rocksStoreAny (W.cfg .debug) (Unread.rd (W.cfg .debug) (W.n 9)) Rocks.init).run hist W.darkState)).vertex (W.u 1) ≠ none :=
  ((C78_rocks (W.cfg .debug) _ (Unread.rd_reader (W.n 9))).stuck _ W.dark_reach (W.u 1) W.p (by decide +kernel) W.dark_hidden hist).2 (by decide +kernel)

/-- `C78_rocks_index` applies: the index query finds the owner of the value that cannot be read. -/
example : (rocksStoreAny (W.cfg .debug) (Unread.rd (W.cfg .debug) (W.n 9)) Rocks.init).IndexExactAt
    (fun w x => (W.cfg .debug).H w.stream == (W.cfg .debug).H x.stream) True W.darkState :=
  C78_rocks_index _ _ (Unread.rd_reader (W.n 9)) W.dark ⟨trivial, trivial, trivial,
    (by show SameHash _ _; show (_ : UInt64) = _; decide +kernel), trivial⟩
    ⟨fun _ => by decide +kernel, (fun ⟨_, h⟩ => nomatch h), (fun ⟨_, h⟩ => nomatch h),
      (fun ⟨_, h⟩ => nomatch h), trivial⟩

end W

end IndraDB
