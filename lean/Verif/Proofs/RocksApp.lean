import Verif.Spec.RocksApp
import Verif.Proofs.RocksComplete
import Verif.Proofs.RocksCalm
import Verif.Proofs.Progress
import Verif.Proofs.Plugins
/-
Processes that use a RocksDB datastore through transactions and library calls.
-/
set_option linter.unusedSimpArgs false
namespace IndraDB
namespace Rocks
open Prog LockConc
variable {X : Cfg} {io : Bool}

/-- What has to be shown for an invariant: `G` of the database, `P` of the rest of each call, `B` of the batches written. -/
structure Rules (X : Cfg) (io : Bool) (ok : Access → Prop) (G : Rocks → Prop) (P : Access → Prog Answer → Prop) (B : Batch → Prop) :
    Prop where
  enter : ∀ O a, ok a → P a (accessProg X O a)
  fault : io = true → ∀ a, P a (.done (.error ioFault))
  get : ∀ s a cf b n, G s → P a (.get cf b n) → P a (n ((s.kv cf).get b))
  scan : ∀ s a cf lo n, G s → P a (.scan cf lo n) → P a (n (((s.kv cf).rangeFrom lo).map .ok))
  scanFails : io = true → ∀ s a cf lo n i, G s → P a (.scan cf lo n) →
    P a (n ((((s.kv cf).rangeFrom lo).take i).map .ok ++ [.error ioFault]))
  write : ∀ s a b n, G s → P a (.write b n) → B b ∧ G { s with kv := s.kv.write b } ∧ P a (n ())
  readLock : ∀ s a held n, G s → P a (.readLock held n) → P a (n s.indexed)
  writeLock : ∀ s a n, G s → P a (.writeLock n) → P a (n s.indexed)
  setIndexed : ∀ s a ix n, G s → P a (.setIndexed ix n) → G { s with indexed := ix } ∧ P a (n ())

/-- What they give. -/
structure AppHolds (G : Rocks → Prop) (P : Access → Prog Answer → Prop) (B : Batch → Prop) (h : List AppEv) (S : App) : Prop where
  db : G S.db
  inside : ∀ c a p k, S.tasks c = .inside a p k → P a p
  leaves : ∀ c a r, AppEv.leave c a r ∈ h → P a (.done r)
  log : ∀ x ∈ S.log, B x.2

variable {ok : Access → Prop} {G : Rocks → Prop} {P : Access → Prog Answer → Prop} {B : Batch → Prop}

theorem AppHolds.silent {h e : List AppEv} {S S' : App} (H : AppHolds G P B h S) {c : Nat} {a : Access} {p : Prog Answer}
    {k : Except Error Answer → Task} (hp : P a p) (h1 : S'.tasks = setAt S.tasks c (.inside a p k)) (h2 : G S'.db)
    (h3 : ∀ x ∈ S'.log, B x.2) (h4 : ∀ c a r, AppEv.leave c a r ∉ e) : AppHolds G P B (h ++ e) S' := by
  refine ⟨h2, ?_, ?_, h3⟩
  · intro i b q j hi
    rw [h1] at hi
    rcases setAt_eq hi with ⟨_, h5⟩ | ⟨_, h5⟩
    · cases h5; exact hp
    · exact H.inside i b q j h5
  · intro i b r hr
    rcases List.mem_append.1 hr with hr | hr
    · exact H.leaves i b r hr
    · exact absurd hr (h4 i b r)

theorem AppHolds.quiet {h e : List AppEv} {S S' : App} (H : AppHolds G P B h S) {c : Nat} {t : TaskAt}
    (ht : ∀ a p k, t ≠ .inside a p k) (h1 : S'.tasks = setAt S.tasks c t) (h2 : S'.db = S.db)
    (h3 : S'.log = S.log) (h4 : ∀ c a r, AppEv.leave c a r ∈ e → P a (.done r)) : AppHolds G P B (h ++ e) S' := by
  refine ⟨h2 ▸ H.db, ?_, ?_, h3 ▸ H.log⟩
  · intro i b q j hi
    rw [h1] at hi
    rcases setAt_eq hi with ⟨_, h5⟩ | ⟨_, h5⟩
    · exact absurd h5 (ht _ _ _)
    · exact H.inside i b q j h5
  · intro i b r hr
    rcases List.mem_append.1 hr with hr | hr
    · exact H.leaves i b r hr
    · exact h4 i b r hr

theorem after_outside (k : Except Error Answer → Task) (r : Res Answer) : ∀ a p j, App.after k r ≠ .inside a p j := by
  intro a p j h
  unfold App.after at h
  split at h <;> cases h

theorem Rules.step (R : Rules X io ok G P B) {h e : List AppEv} {S S' : App} (H : AppHolds G P B h S) (hs : App.Step X io S e S')
    (ho : OkEnters ok e) : AppHolds G P B (h ++ e) S' := by
  have no : ∀ c a r, AppEv.leave c a r ∉ ([] : List AppEv) := fun _ _ _ h => (nomatch h)
  cases hs with
  | start c t hc => exact H.quiet (fun _ _ _ h => by cases h) rfl rfl rfl (fun _ _ _ h => by simp at h)
  | enter c O a k hc => exact H.silent (R.enter O a (ho c a (by simp))) rfl H.db H.log (fun _ _ _ h => by simp at h)
  | stop c t hc _ => exact H.quiet (fun _ _ _ h => by cases h) rfl rfl rfl (fun _ _ _ h => by simp at h)
  | get c a k cf b n hc => exact H.silent (R.get _ _ _ _ _ H.db (H.inside c _ _ _ hc)) rfl H.db H.log no
  | getFails c a k cf b n hi hc => exact H.silent (R.fault hi a) rfl H.db H.log no
  | scan c a k cf lo n hc => exact H.silent (R.scan _ _ _ _ _ H.db (H.inside c _ _ _ hc)) rfl H.db H.log no
  | scanFails c i a k cf lo n hi hc => exact H.silent (R.scanFails hi _ _ _ _ _ i H.db (H.inside c _ _ _ hc)) rfl H.db H.log no
  | write c a k b n hc =>
    obtain ⟨h1, h2, h3⟩ := R.write _ _ _ _ H.db (H.inside c _ _ _ hc)
    refine H.silent h3 rfl h2 ?_ no
    intro x hx
    rcases List.mem_append.1 hx with hx | hx
    · exact H.log x hx
    · rw [List.mem_singleton] at hx; subst hx; exact h1
  | writeFails c a k b n hi hc => exact H.silent (R.fault hi a) rfl H.db H.log no
  | flushFails c a k hi hc _ => exact H.silent (R.fault hi a) rfl H.db H.log (fun _ _ _ h => by simp at h)
  | readLock c a k held n hc _ => exact H.silent (R.readLock _ _ _ _ H.db (H.inside c _ _ _ hc)) rfl H.db H.log no
  | writeLock c a k n hc _ _ => exact H.silent (R.writeLock _ _ _ H.db (H.inside c _ _ _ hc)) rfl H.db H.log no
  | setIndexed c a k ix n hc =>
    obtain ⟨h1, h2⟩ := R.setIndexed _ _ _ _ H.db (H.inside c _ _ _ hc)
    exact H.silent h2 rfl h1 H.log no
  | unlock c a k r hc hw => exact ⟨H.db, H.inside, by simpa using H.leaves, H.log⟩
  | unlockRead c a k r hc hw => exact ⟨H.db, H.inside, by simpa using H.leaves, H.log⟩
  | leave c a k r hc hw hd =>
    refine H.quiet (after_outside k r) rfl rfl rfl (fun i b r' h => ?_)
    rw [List.mem_singleton] at h
    cases h
    exact H.inside c _ _ _ hc

theorem OkEnters.left {h e : List AppEv} (ho : OkEnters ok (h ++ e)) : OkEnters ok h :=
  fun c a hm => ho c a (List.mem_append_left _ hm)
theorem OkEnters.right {h e : List AppEv} (ho : OkEnters ok (h ++ e)) : OkEnters ok e :=
  fun c a hm => ho c a (List.mem_append_right _ hm)

theorem Rules.exec (R : Rules X io ok G P B) {s : Rocks} (hs : G s) {h : List AppEv} {S : App} (hx : App.Exec X io s h S)
    (ho : OkEnters ok h) : AppHolds G P B h S := by
  induction hx with
  | nil => exact ⟨hs, (fun _ _ _ _ h => by cases h), (fun _ _ _ h => (nomatch h)), (fun _ h => (nomatch h))⟩
  | snoc hx hst ih => exact R.step (ih ho.left) hst ho.right

theorem _root_.IndraDB.Rocks.App.Step.weaken {S S' : App} {e : List AppEv} (hs : App.Step X io S e S') : App.Step X true S e S' := by
  cases hs with
  | start c t h => exact .start _ c t h
  | enter c O a k h => exact .enter _ c O a k h
  | stop c t h h' => exact .stop _ c t h h'
  | get c a k cf b n h => exact .get _ c a k cf b n h
  | getFails c a k cf b n hi h => exact .getFails _ c a k cf b n rfl h
  | scan c a k cf lo n h => exact .scan _ c a k cf lo n h
  | scanFails c i a k cf lo n hi h => exact .scanFails _ c i a k cf lo n rfl h
  | write c a k b n h => exact .write _ c a k b n h
  | writeFails c a k b n hi h => exact .writeFails _ c a k b n rfl h
  | flushFails c a k hi h h' => exact .flushFails _ c a k rfl h h'
  | readLock c a k held n h h' => exact .readLock _ c a k held n h h'
  | writeLock c a k n h h' h'' => exact .writeLock _ c a k n h h' h''
  | setIndexed c a k ix n h => exact .setIndexed _ c a k ix n h
  | unlock c a k r h h' => exact .unlock _ c a k r h h'
  | unlockRead c a k r h h' => exact .unlockRead _ c a k r h h'
  | leave c a k r h h' h'' => exact .leave _ c a k r h h' h''

theorem _root_.IndraDB.Rocks.App.Exec.weaken {s : Rocks} {h : List AppEv} {S : App} (hx : App.Exec X io s h S) : App.Exec X true s h S := by
  induction hx with
  | nil => exact .nil
  | snoc hx hs ih => exact ih.snoc hs.weaken

/-! ### The calls -/

/-- A method of a transaction that reads. -/
def _root_.IndraDB.Access.isRead : Access → Bool
  | .lib _ => false
  | .write _ => false
  | _ => true

theorem rd_access (O : IdentOrder) (a : Access) (h : a.isRead = true) : (accessProg X O a).Reading := by
  have map : ∀ {α : Type} {p : Prog α} (f : α → Answer), p.Reading → (p >>= fun a => (pure (f a) : Prog Answer)).Reading :=
    fun f h => h.bind (fun _ => trivial)
  cases a with
  | lib op => cases h
  | vertexCount => exact map _ ((rd_vertexIterate _).bind (fun _ => trivial))
  | allVertices => exact map _ (rd_vertexIterate _)
  | rangeVertices o => exact map _ (rd_vertexIterate _)
  | specificVertices ids => exact map _ (rd_specificVertices _)
  | vertexIdsWithProperty n => exact map _ (rd_vertexIdsWithProperty _)
  | vertexIdsWithPropertyValue n v => exact map _ (rd_vertexIdsWithPropertyValue _ _)
  | edgeCount => exact map _ ((rd_edgeIterateAll _).bind (fun _ => trivial))
  | allEdges => exact map _ (rd_edgeIterateAll _)
  | rangeEdges o => exact map _ (rd_edgeIterateRange _ _)
  | rangeReversedEdges o => exact map _ (rd_edgeIterateRange _ _)
  | specificEdges es => exact map _ (rd_specificEdges _)
  | edgesWithProperty n => exact map _ (rd_edgesWithProperty _)
  | edgesWithPropertyValue n v => exact map _ (rd_edgesWithPropertyValue _ _)
  | vertexProperty v n => exact map _ (rd_vpGet _ _)
  | vertexProperties v => exact map _ (rd_propItems (rd_vpIterate _))
  | edgeProperty e n => exact map _ (rd_epGet _ _)
  | edgeProperties e => exact map _ (rd_propItems (rd_epIterate _))
  | write w => cases h

theorem all_txn {V : Json → Prop} (O : IdentOrder) (w : TxnCall) (hv : w.ValuesOk V) : (txnProg X O w).All (BatchOk X V) (fun _ => True) := by
  have map : ∀ {α : Type} {p : Prog α} (f : α → TxnReply), p.All (BatchOk X V) (fun _ => True) →
      (p >>= fun a => (pure (f a) : Prog TxnReply)).All (BatchOk X V) (fun _ => True) :=
    fun f h => h.bind (fun _ _ => trivial)
  cases w with
  | deleteVertices vs => exact map _ (all_deleteVertices vs)
  | deleteEdges es => exact map _ (all_deleteEdges es)
  | deleteVertexProperties ps => exact map _ (all_deleteVertexProperties ps)
  | deleteEdgeProperties ps => exact map _ (all_deleteEdgeProperties ps)
  | sync => trivial
  | createVertex v => exact map _ (all_createVertex v)
  | createEdge e => exact map _ (all_createEdge e)
  | bulkInsert items => exact map _ (all_bulkInsert items hv)
  | indexProperty n => exact map _ (all_indexProperty O n)
  | setVertexProperties ids n v => exact map _ (all_setVertexProperties _ n v hv)
  | setEdgeProperties es n v => exact map _ (all_setEdgeProperties _ n v hv)

theorem all_access {V : Json → Prop} (O : IdentOrder) (a : Access) (hv : a.ValuesOk V) :
    (accessProg X O a).All (BatchOk X V) (fun _ => True) := by
  cases hr : a.isRead with
  | true => exact Quiet.of_reading (rd_access O a hr) _
  | false => cases a with
    | lib op => exact (all_call O op hv).bind (fun _ _ => trivial)
    | write w => exact (all_txn O w hv).bind (fun _ _ => trivial)
    | _ => cases hr

/-- The errors shown are permitted. -/
def Shows (P : Perms X) (r : Res Answer) : Prop := ∀ f ∈ faultsOf r, Mild P f

theorem _root_.IndraDB.Items.shown {α : Type} {P : Perms X} {Q : α → Prop} {l : DynIter α} (h : Items P Q l) : ∀ f ∈ faultsIn l, Mild P f := by
  intro f hf
  obtain ⟨i, hi, e⟩ := List.mem_filterMap.1 hf
  cases i with
  | ok a => cases e
  | error g => cases e; exact h.2 _ hi

theorem calm_txn {P : Perms X} (O : IdentOrder) (w : TxnCall) : (txnProg X O w).Calm P (fun _ => True) := by
  have map : ∀ {α : Type} {p : Prog α} (f : α → TxnReply), p.Calm P (fun _ => True) →
      (p >>= fun a => (pure (f a) : Prog TxnReply)).Calm P (fun _ => True) :=
    fun f h => h.bind (fun _ _ => .pure trivial)
  cases w with
  | deleteVertices vs => exact map _ (calm_deleteVertices vs)
  | deleteEdges es => exact map _ (calm_deleteEdges es)
  | deleteVertexProperties ps => exact map _ (calm_deleteVertexProperties ps)
  | deleteEdgeProperties ps => exact map _ (calm_deleteEdgeProperties ps)
  | sync => exact map _ (.pure trivial)
  | createVertex v => exact map _ (calm_createVertex v)
  | createEdge e => exact map _ (calm_createEdge e)
  | bulkInsert items => exact map _ (calm_bulkInsert items)
  | indexProperty n => exact map _ (calm_indexProperty O n)
  | setVertexProperties ids n v => exact map _ (calm_setVertexProperties _ n v)
  | setEdgeProperties es n v => exact map _ (calm_setEdgeProperties _ n v)

theorem calm_opt {α : Type} {P : Perms X} {n : Identifier} {p : Prog (DynIter α)} (h : p.Calm P (Items P (fun _ => True))) :
    (ifIndexed n p).Calm P (fun o => ∀ l, o = some l → Items P (fun _ => True) l) := by
  intro ix _
  show Prog.Calm P _ (if _ then _ else _)
  split
  · exact h.bind (fun l hl => .pure (fun l' e => by cases e; exact hl))
  · exact .pure (fun l' e => by cases e)

/-- A call fails, and items of the iterator it returns fail, only as permitted. -/
theorem calm_access {P : Perms X} (O : IdentOrder) (a : Access) (h : ∀ op, a = .lib op → Permits P op) :
    (accessProg X O a).Calm P (fun x => Shows P (.ok x)) := by
  have none : ∀ {x : Answer}, faultsOf (.ok x) = [] → Shows P (.ok x) := by
    intro x hx f hf
    rw [hx] at hf; cases hf
  cases a with
  | lib op => exact (calm_call O op (h op rfl)).bind (fun _ _ => .pure (none rfl))
  | vertexCount => exact Calm.bind (Q := fun _ => True) ((calm_vertexIterate _).bind (fun _ _ => .pure trivial)) (fun _ _ => .pure (none rfl))
  | allVertices => exact (calm_vertexIterate _).bind (fun _ h => .pure h.shown)
  | rangeVertices o => exact (calm_vertexIterate _).bind (fun _ h => .pure h.shown)
  | specificVertices ids => exact (calm_specificVertices _).bind (fun _ h => .pure h.shown)
  | vertexIdsWithProperty n =>
    refine (calm_opt (calm_vids _)).bind (fun o h => .pure ?_)
    cases o with
    | none => exact none rfl
    | some l => exact (h l rfl).shown
  | vertexIdsWithPropertyValue n v =>
    refine (calm_opt (calm_vids _)).bind (fun o h => .pure ?_)
    cases o with
    | none => exact none rfl
    | some l => exact (h l rfl).shown
  | edgeCount => exact Calm.bind (Q := fun _ => True) ((calm_edgeIterateAll (.inl rfl)).bind (fun _ _ => .pure trivial)) (fun _ _ => .pure (none rfl))
  | allEdges => exact (calm_edgeIterateAll (.inl rfl)).bind (fun _ h => .pure h.shown)
  | rangeEdges o => exact (calm_edgeIterateRange (.inl rfl) _).bind (fun _ h => .pure h.shown)
  | rangeReversedEdges o => exact (calm_edgeIterateRange (.inr rfl) _).bind (fun _ h => .pure h.shown)
  | specificEdges es => exact (calm_specificEdges _).bind (fun _ h => .pure h.shown)
  | edgesWithProperty n =>
    refine (calm_opt (calm_epvIterate _)).bind (fun o h => .pure ?_)
    cases o with
    | none => exact none rfl
    | some l => exact (h l rfl).shown
  | edgesWithPropertyValue n v =>
    refine (calm_opt (calm_epvIterate _)).bind (fun o h => .pure ?_)
    cases o with
    | none => exact none rfl
    | some l => exact (h l rfl).shown
  | vertexProperty v n => exact (calm_vpGet _ _).bind (fun _ _ => .pure (none rfl))
  | vertexProperties v => exact (calm_propItems (calm_vpIterate _)).bind (fun _ h => .pure h.shown)
  | edgeProperty e n => exact (calm_epGet _ _).bind (fun _ _ => .pure (none rfl))
  | edgeProperties e => exact (calm_propItems (calm_epIterate _)).bind (fun _ h => .pure h.shown)
  | write w => exact (calm_txn O w).bind (fun _ _ => .pure (none rfl))

/-! ### Errors -/

/-- What a call under way satisfies. -/
def Tidy (P : Perms X) (V : Json → Prop) (p : Prog Answer) : Prop := p.Calm P (fun x => Shows P (.ok x)) ∧ p.All (BatchOk X V) (fun _ => True)

variable {V : Json → Prop}

/-- Each call shows only the errors `Ps` permits it. -/
theorem tidyRules {Ps : Access → Perms X} (hn : ∀ a ix, (Ps a).names ix) (hd : io = true → ∀ a, (Ps a).err .datastore)
    (hp : ∀ op, Permits (Ps (.lib op)) op) (hr : ∀ a, (Ps a).Reads V) :
    Rules X io (Access.ValuesOk V) (fun s => Sound X V s.kv) (fun a p => Tidy (Ps a) V p) (BatchOk X V) where
  enter O a ha := ⟨calm_access O a (fun op e => e ▸ hp op), all_access O a ha⟩
  fault hi a := ⟨⟨(fun f e => by cases e; exact ⟨_, rfl, hd hi a⟩), fun a h => (nomatch h)⟩, trivial⟩
  get s a cf b n hs h := ⟨h.1 _ (fun v hv => hs.entry (hr a) hv), h.2 _⟩
  scan s a cf lo n hs h := ⟨h.1 _ (hs.all_items (hr a) _ _), h.2 _⟩
  scanFails hi s a cf lo n i hs h := ⟨h.1 _ (hs.items (hr a) _ _ _ _ (.inr ⟨rfl, hd hi a⟩)), h.2 _⟩
  write s a b n hs h := ⟨h.2.1, hs.write h.2.1, h.1, h.2.2⟩
  readLock s a held n _ h := ⟨h.1 _ (hn a _), h.2 _⟩
  writeLock s a n _ h := ⟨h.1 _ (hn a _), h.2 _⟩
  setIndexed s a ix n hs h := ⟨hs, h.1.2, h.2⟩

theorem Tidy.shows {P : Perms X} {r : Res Answer} (h : Tidy P V (.done r)) : Shows P r := by
  cases r with
  | ok x => exact h.1.2 x rfl
  | error f =>
    intro g hg
    rw [faultsOf, List.mem_singleton] at hg
    subst hg
    exact h.1.1 _ rfl

/-- What calls may show: library calls any error except a damaged entry, methods of transactions I/O errors only. -/
def _root_.IndraDB.Perms.app (X : Cfg) (io : Bool) (a : Access) : Perms X where
  err e := if a.isLib then e ≠ .io ∧ (e = .datastore → io = true) else io = true ∧ e = .datastore
  names _ := True
  bytes b := X.codec.dec b ≠ none
  unreadable _ h h' := absurd h' h
  more _ _ _ := trivial

theorem laxRules : Rules X io (Access.ValuesOk V) (fun s => Sound X V s.kv) (fun _ p => Tidy (Perms.lax X) V p) (BatchOk X V) :=
  tidyRules (Ps := fun _ => Perms.lax X) (fun _ _ => trivial) (fun _ _ h => by cases h) permits_lax (fun _ _ _ => trivial)

theorem appRules : Rules X io (Access.ValuesOk (CanRead X)) (fun s => Sound X (CanRead X) s.kv)
    (fun a p => Tidy (Perms.app X io a) (CanRead X) p) (BatchOk X (CanRead X)) := by
  refine tidyRules (Ps := Perms.app X io) (fun _ _ => trivial) (fun hi a => ?_) (fun op => ⟨fun n _ => .inl ?_, .inl ?_, .inl ?_⟩) (fun a x hx => ?_)
  · show if _ then _ else _
    split
    · exact ⟨(fun h => by cases h), fun _ => hi⟩
    · exact ⟨hi, rfl⟩
  · exact ⟨(fun h => by cases h), (fun h => by cases h)⟩
  · exact ⟨(fun h => by cases h), (fun h => by cases h)⟩
  · exact ⟨(fun h => by cases h), (fun h => by cases h)⟩
  · obtain ⟨w, hw⟩ := hx
    show X.codec.dec _ ≠ none
    rw [hw]; simp

theorem OkEnters.mono {ok' : Access → Prop} {h : List AppEv} (ho : OkEnters ok h) (hm : ∀ a, ok a → ok' a) : OkEnters ok' h :=
  fun c a ha => hm a (ho c a ha)

theorem OkEnters.any (h : List AppEv) : OkEnters (Access.ValuesOk (fun _ => True)) h := by
  intro c a _
  cases a with
  | lib op => cases op <;> simp only [Access.ValuesOk, Op.ValuesOk]; intro i _; cases i <;> trivial
  | write w => cases w <;> simp only [Access.ValuesOk, TxnCall.ValuesOk]; intro i _; cases i <;> trivial
  | _ => trivial

theorem Sound.appLife {hs : List (List AppEv)} {s : Rocks} (hl : AppLife X hs s) (hv : ∀ h ∈ hs, OkEnters (Access.ValuesOk V) h) :
    Sound X V s.kv := by
  induction hl with
  | new h =>
    cases h
    exact Sound.empty
  | @again hs s t h S k _ hx ht ih =>
    have ih := ih (fun h hm => hv h (List.mem_append_left _ hm))
    have H := laxRules.exec ih hx (hv h (by simp))
    have := ih.replay (l := S.log.take k) (fun x hx => H.log x (List.mem_of_mem_take hx))
    obtain ⟨t', h1, h2⟩ := this.opens
    rw [h1] at ht
    cases ht
    rw [h2]; exact this

/-! ### Indexes -/

variable {n : Identifier} {R : Json → UInt64 → Prop}

theorem if_txn (hR : Enters X V R) (O : IdentOrder) (w : TxnCall) (hv : w.ValuesOk V) :
    (txnProg X O w).AllIf (Has n) (Keeps X R n) (fun _ => True) := by
  have map : ∀ {α : Type} {p : Prog α} (f : α → TxnReply), p.AllIf (Has n) (Keeps X R n) (fun _ => True) →
      (p >>= fun a => (pure (f a) : Prog TxnReply)).AllIf (Has n) (Keeps X R n) (fun _ => True) :=
    fun f h => h.bind (fun _ _ => trivial)
  cases w with
  | deleteVertices vs => exact map _ (if_locked (fun _ _ => .forAll .nil (fun _ _ => .append) (fun _ _ => if_vertexDelete _ _)))
  | deleteEdges es =>
    refine map _ (if_locked (fun ix _ => .forAll .nil (fun _ _ => .append) (fun e _ => ?_)))
    refine (rd_vertexGet _).thenIf (fun r => ?_)
    cases r with
    | none => exact Keeps.nil
    | some t => exact if_edgeDelete _ _
  | deleteVertexProperties ps => exact map _ (if_locked (fun _ _ => .forAll .nil (fun _ _ => .append) (fun _ _ => if_vpDelete _ _ _)))
  | deleteEdgeProperties ps => exact map _ (if_locked (fun _ _ => .forAll .nil (fun _ _ => .append) (fun _ _ => if_epDelete _ _ _)))
  | sync => trivial
  | createVertex v =>
    refine map _ ((rd_vertexExists _).thenIf (fun r => ?_))
    split
    · trivial
    · exact ⟨keeps_vertex (Or.inl ⟨_, _, rfl⟩), trivial⟩
  | createEdge e =>
    refine map _ ?_
    refine (rd_vertexExists _).thenIf (fun r => ?_)
    split
    · trivial
    · refine (rd_vertexExists _).thenIf (fun r => ?_)
      split
      · trivial
      · exact (if_edgeSet (R := R) e).bind (fun b hb => ⟨hb, trivial⟩)
  | bulkInsert items =>
    refine map _ (if_locked (fun ix hi => .forAll .nil (fun _ _ => .append) (fun i hm => ?_)))
    have hvi := hv i hm
    cases i with
    | vertex v => exact keeps_vertex (Or.inl ⟨_, _, rfl⟩)
    | edge e => exact if_edgeSet e
    | vertexProperty id m v => exact if_vpSet hR hi _ _ _ hvi
    | edgeProperty e m v => exact if_epSet hR hi _ _ _ hvi
  | indexProperty m => exact map _ (if_indexProperty O m)
  | setVertexProperties ids m v => exact map _ (if_locked (fun _ hi => .forAll .nil (fun _ _ => .append) (fun _ _ => if_vpSet hR hi _ _ _ hv)))
  | setEdgeProperties es m v => exact map _ (if_locked (fun _ hi => .forAll .nil (fun _ _ => .append) (fun _ _ => if_epSet hR hi _ _ _ hv)))

theorem _root_.IndraDB.Prog.Reading.allIf {α : Type} {p : Prog α} {I : SSet Identifier → Prop} {B : Batch → Prop} (h : p.Reading) : p.AllIf I B (fun _ => True) := by
  have := h.thenIf (I := I) (P := B) (Q' := fun _ => True) (f := fun a => (pure a : Prog α)) (fun _ => trivial)
  have e : ∀ p : Prog α, p.bind (fun a => .done (.ok a)) = p := by
    intro p
    induction p with
    | done r => cases r <;> rfl
    | get cf k n ih => simp only [Prog.bind]; congr; funext r; exact ih r
    | scan cf k n ih => simp only [Prog.bind]; congr; funext r; exact ih r
    | write b n ih => simp only [Prog.bind]; congr; funext r; exact ih r
    | readLock _ n ih => simp only [Prog.bind]; congr; funext r; exact ih r
    | writeLock n ih => simp only [Prog.bind]; congr; funext r; exact ih r
    | setIndexed ix n ih => simp only [Prog.bind]; congr; funext r; exact ih r
  have e' : (p >>= fun a => (pure a : Prog α)) = p := e p
  rwa [e'] at this

theorem if_access (hR : Enters X V R) (O : IdentOrder) (a : Access) (hv : a.ValuesOk V) :
    (accessProg X O a).AllIf (Has n) (Keeps X R n) (fun _ => True) := by
  cases hr : a.isRead with
  | true => exact Reading.allIf (rd_access O a hr)
  | false => cases a with
    | lib op => exact (if_call hR O op hv).bind (fun _ _ => trivial)
    | write w => exact (if_txn hR O w hv).bind (fun _ _ => trivial)
    | _ => cases hr

theorem keptRules (hR : Enters X V R) : Rules X io (Access.ValuesOk V) (fun s => Has n s.indexed ∧ Complete X R n s.kv)
    (fun _ p => p.AllIf (Has n) (Keeps X R n) (fun _ => True)) (Keeps X R n) where
  enter O a ha := if_access hR O a ha
  fault _ _ := trivial
  get _ _ _ _ _ _ h := h _
  scan _ _ _ _ _ _ h := h _
  scanFails _ _ _ _ _ _ _ _ h := h _
  write s a b n hs h := ⟨h.1, ⟨hs.1, hs.2.write h.1⟩, h.2⟩
  readLock s a held n hs h := h _ hs.1
  writeLock s a n hs h := h _ hs.1
  setIndexed s a ix n hs h := ⟨⟨h.1, hs.2⟩, h.2⟩

theorem _root_.IndraDB.Access.ValuesOk.mono {V' : Json → Prop} (hv : ∀ x, V x → V' x) (a : Access) (h : a.ValuesOk V) : a.ValuesOk V' := by
  cases a with
  | lib op =>
    have : OkCalls V [Ev.call 0 op] := fun c o hm => by rw [List.mem_singleton] at hm; cases hm; exact h
    exact this.mono hv 0 op (by simp)
  | write w =>
    cases w with
    | bulkInsert items =>
      intro i hi
      have := h i hi
      cases i with
      | vertexProperty id n v => exact hv _ this
      | edgeProperty e n v => exact hv _ this
      | _ => trivial
    | setVertexProperties ids n v => exact hv _ h
    | setEdgeProperties es n v => exact hv _ h
    | _ => trivial
  | _ => trivial

/-- As `Kept`, together with the record of the indexed names being readable. -/
theorem Kept.app (hR : Enters X V R) (hc : ∀ x, V x → CanRead X x) {s : Rocks} (h : Kept X R n s) {hh : List AppEv} {S : App}
    (hx : App.Exec X io s hh S) (ho : OkEnters (Access.ValuesOk V) hh) : Kept X R n S.db ∧
    (∀ x ∈ S.log, Keeps X R n x.2) ∧ ∀ x ∈ S.log, BatchOk X (CanRead X) x.2 := by
  have H := (keptRules (io := io) (n := n) hR).exec ⟨h.has, h.complete⟩ hx ho
  have W : AppHolds (fun s => Wf X s.kv ∧ Values X (CanRead X) s.kv) (fun _ p => p.All (BatchOk X (CanRead X)) (fun _ => True))
      (BatchOk X (CanRead X)) hh S := Rules.exec (io := io) (ok := Access.ValuesOk (CanRead X)) {
    enter := fun O a ha => all_access O a ha
    fault := fun _ _ => trivial
    get := fun _ _ _ _ _ _ h => h _
    scan := fun _ _ _ _ _ _ h => h _
    scanFails := fun _ _ _ _ _ _ _ _ h => h _
    write := fun s a b n hs h => ⟨h.1, ⟨hs.1.write h.1, hs.2.write h.1⟩, h.2⟩
    readLock := fun _ _ _ _ _ h => h _
    writeLock := fun _ _ _ _ h => h _
    setIndexed := fun _ _ _ _ hs h => ⟨hs, h⟩ } ⟨h.wf, h.values⟩ hx (ho.mono (Access.ValuesOk.mono hc))
  exact ⟨⟨W.db.1, W.db.2, H.db.1, H.db.2⟩, H.log, W.log⟩

theorem Kept.appSessions (hR : Enters X V R) (hc : ∀ x, V x → CanRead X x) {s t : Rocks} (h : Kept X R n s) {hs : List (List AppEv)}
    (hl : AppSessions X s hs t) (ho : ∀ h ∈ hs, OkEnters (Access.ValuesOk V) h) : Kept X R n t := by
  induction hl with
  | none => exact h
  | @again hs t u h' S k _ hx hm ht ih =>
    have K := ih (fun a ha => ho a (List.mem_append_left _ ha))
    obtain ⟨_, L1, L2⟩ := K.app hR hc hx (ho h' (by simp))
    have C := K.complete.replay (l := S.log.take k) (fun x hx => L1 x (List.mem_of_mem_take hx))
    have D := Wf.replay ⟨K.wf, K.values⟩ (l := S.log.take k) (fun x hx => L2 x (List.mem_of_mem_take hx))
    obtain ⟨h1, h2⟩ := C.opens hm ht
    exact ⟨h1 ▸ D.1, h1 ▸ D.2, h2, h1 ▸ C⟩

end Rocks
end IndraDB
