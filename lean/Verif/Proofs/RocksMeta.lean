import Verif.Proofs.RocksNames
import Verif.Props.RocksNames
/-
The set of indexed names in memory and on disk while calls overlap.
-/
set_option linter.unusedSimpArgs false
namespace IndraDB

theorem Prog.bind_assoc' {α β γ : Type} (p : Prog α) (f : α → Prog β) (g : β → Prog γ) :
    (p.bind f).bind g = p.bind (fun a => (f a).bind g) := by
  induction p with
  | done r => cases r <;> rfl
  | get cf k n ih => exact congrArg (Prog.get cf k) (funext ih)
  | scan cf k n ih => exact congrArg (Prog.scan cf k) (funext ih)
  | write b n ih => exact congrArg (Prog.write b) (funext ih)
  | readLock h n ih => exact congrArg (Prog.readLock h) (funext ih)
  | writeLock n ih => exact congrArg Prog.writeLock (funext ih)
  | setIndexed x n ih => exact congrArg (Prog.setIndexed x) (funext ih)

namespace Rocks
open Prog Conc LockConc
variable {X : Cfg} {P : Batch → Prop}

/-- The batch does not touch the metadata. -/
def NoMeta (b : Batch) : Prop := ∀ k, b.at .metadata k = none

theorem NoMeta.nil : NoMeta [] := fun _ => rfl
theorem NoMeta.append {a b : Batch} (ha : NoMeta a) (hb : NoMeta b) : NoMeta (a ++ b) := fun k => by
  rw [Batch.at_append, ha, hb]; rfl
theorem nm_put {cf : CF} {k v : Bytes} (h : cf ≠ .metadata) : NoMeta [.put cf k v] := fun k => by
  simp [Batch.at_singleton, WriteOp.at, h]
theorem nm_delete {cf : CF} {k : Bytes} (h : cf ≠ .metadata) : NoMeta [.delete cf k] := fun k => by
  simp [Batch.at_singleton, WriteOp.at, h]

theorem nm_vpDelete (ix : SSet Identifier) (id : Uuid) (n : Identifier) : (vpDelete X ix id n).All P (NoMeta) := by
  have hd : NoMeta [.delete .vertexProperties (vpKey X id n)] := nm_delete (by simp)
  unfold vpDelete
  refine Prog.All.bind (Q := NoMeta) ?_ (fun b hb => hb.append hd)
  split
  · refine (quiet_vpGet _ _).then ?_
    intro r
    cases r with
    | none => exact .nil
    | some v => exact nm_delete (by simp)
  · exact .nil

theorem nm_vpSet (ix : SSet Identifier) (id : Uuid) (n : Identifier) (v : Json):
    (vpSet X ix id n v).All P (NoMeta) := by
  have hd := nm_put (cf := .vertexProperties) (k := vpKey X id n) (v := X.codec.enc v) (by simp)
  unfold vpSet
  refine Prog.All.bind (Q := NoMeta) ?_ (fun b hb => ?_)
  · split
    · exact nm_vpDelete _ _ _
    · exact .nil
  · show NoMeta (if _ then _ else _)
    split
    · exact (hb.append hd).append (nm_put (by simp))
    · exact hb.append hd

theorem nm_epDelete (ix : SSet Identifier) (e : Edge) (n : Identifier) : (epDelete X ix e n).All P (NoMeta) := by
  have hd : NoMeta [.delete .edgeProperties (epKey X e n)] := nm_delete (by simp)
  unfold epDelete
  refine Prog.All.bind (Q := NoMeta) ?_ (fun b hb => hb.append hd)
  split
  · refine (quiet_epGet _ _).then ?_
    intro r
    cases r with
    | none => exact .nil
    | some v => exact nm_delete (by simp)
  · exact .nil

theorem nm_epSet (ix : SSet Identifier) (e : Edge) (n : Identifier) (v : Json):
    (epSet X ix e n v).All P (NoMeta) := by
  have hd := nm_put (cf := .edgeProperties) (k := epKey X e n) (v := X.codec.enc v) (by simp)
  unfold epSet
  refine Prog.All.bind (Q := NoMeta) ?_ (fun b hb => ?_)
  · split
    · exact nm_epDelete _ _ _
    · exact .nil
  · show NoMeta (if _ then _ else _)
    split
    · exact (hb.append hd).append (nm_put (by simp))
    · exact hb.append hd

theorem nm_edgeSet (e : Edge) : (edgeSet X e).All P (NoMeta) := by
  unfold edgeSet
  refine (quiet_edgeContains _ _).then ?_
  intro r
  show NoMeta _
  rw [List.append_assoc]
  refine NoMeta.append ?_ ((nm_put (by simp)).append (nm_put (by simp)))
  split
  · exact (nm_delete (by simp)).append (nm_delete (by simp))
  · exact .nil

theorem nm_edgeDelete (ix : SSet Identifier) (e : Edge) : (edgeDelete X ix e).All P (NoMeta) := by
  unfold edgeDelete
  refine (quiet_epIterate _).then ?_
  intro l
  refine Prog.All.bind (Q := NoMeta) (.forItems .nil (fun _ _ => .append) (fun _ _ => nm_epDelete _ _ _)) ?_
  intro b hb
  exact ((nm_delete (by simp)).append (nm_delete (by simp))).append hb

theorem nm_vertexDelete (ix : SSet Identifier) (id : Uuid) : (vertexDelete X ix id).All P (NoMeta) := by
  have he : ∀ (l : DynIter Edge), (Prog.forItems (fun e => do
      Prog.lift (debugAssert X (e.outboundId = id))
      edgeDelete X ix e) l).All P (NoMeta) := by
    intro l
    refine .forItems .nil (fun _ _ => .append) (fun e _ => ?_)
    exact (quiet_lift _).then (fun _ => nm_edgeDelete _ _)
  unfold vertexDelete
  refine (quiet_vpIterate _).then (fun l => ?_)
  refine Prog.All.bind (Q := NoMeta) (.forItems .nil (fun _ _ => .append) (fun _ _ => nm_vpDelete _ _ _)) ?_
  intro b1 h1
  refine (quiet_edgeIterateRoot _ _).then (fun l => ?_)
  refine (he l).bind (fun b2 h2 => ?_)
  refine (quiet_edgeIterateRoot _ _).then (fun l => ?_)
  refine (he l).bind (fun b3 h3 => ?_)
  exact (((nm_delete (by simp)).append h1).append h2).append h3

/-- What the transaction methods may write. -/
theorem nm_locked {f : SSet Identifier → Prog Batch} (h : ∀ ix, (f ix).All (NoMeta) (NoMeta)) :
    (locked f).All (NoMeta) (fun _ => True) := by
  intro ix
  exact (h ix).bind (fun b hb => .writeBatch hb)

theorem nm_deleteVertices (vs : List Vertex) : (deleteVertices X vs).All (NoMeta) (fun _ => True) :=
  nm_locked (fun _ => .forAll .nil (fun _ _ => .append) (fun _ _ => nm_vertexDelete _ _))

theorem nm_deleteEdges (es : List Edge) : (deleteEdges X es).All (NoMeta) (fun _ => True) := by
  refine nm_locked (fun ix => .forAll .nil (fun _ _ => .append) (fun e _ => ?_))
  refine (quiet_vertexGet _).then (fun r => ?_)
  cases r with
  | none => exact NoMeta.nil
  | some t => exact nm_edgeDelete _ _

theorem nm_deleteVertexProperties (ps : List (Uuid × Identifier)) :
    (deleteVertexProperties X ps).All (NoMeta) (fun _ => True) :=
  nm_locked (fun _ => .forAll .nil (fun _ _ => .append) (fun _ _ => nm_vpDelete _ _ _))

theorem nm_deleteEdgeProperties (ps : List (Edge × Identifier)) :
    (deleteEdgeProperties X ps).All (NoMeta) (fun _ => True) :=
  nm_locked (fun _ => .forAll .nil (fun _ _ => .append) (fun _ _ => nm_epDelete _ _ _))

theorem nm_createVertex (v : Vertex) : (createVertex X v).All (NoMeta) (fun _ => True) := by
  unfold createVertex
  refine (quiet_vertexExists _).then (fun r => ?_)
  split
  · trivial
  · exact ⟨nm_put (by simp), trivial⟩

theorem nm_createEdge (e : Edge) : (createEdge X e).All (NoMeta) (fun _ => True) := by
  unfold createEdge
  refine (quiet_vertexExists _).then (fun r => ?_)
  split
  · trivial
  · refine (quiet_vertexExists _).then (fun r => ?_)
    split
    · trivial
    · exact (nm_edgeSet e).bind (fun b hb => ⟨hb, trivial⟩)

theorem nm_bulkItem (ix : SSet Identifier) (item : BulkInsertItem) :
    (bulkItem X ix item).All P (NoMeta) := by
  cases item with
  | vertex v => exact nm_put (by simp)
  | edge e => exact nm_edgeSet e
  | vertexProperty id n v => exact nm_vpSet _ _ _ _
  | edgeProperty id n v => exact nm_epSet _ _ _ _

theorem nm_bulkInsert (items : List BulkInsertItem) :
    (bulkInsert X items).All (NoMeta) (fun _ => True) :=
  nm_locked (fun _ => .forAll .nil (fun _ _ => .append) (fun i hi => nm_bulkItem _ i))

theorem nm_setVertexProperties (ids : List Uuid) (n : Identifier) (v : Json) :
    (setVertexProperties X ids n v).All (NoMeta) (fun _ => True) :=
  nm_locked (fun _ => .forAll .nil (fun _ _ => .append) (fun _ _ => nm_vpSet _ _ _ _))

theorem nm_setEdgeProperties (es : List Edge) (n : Identifier) (v : Json) :
    (setEdgeProperties X es n v).All (NoMeta) (fun _ => True) :=
  nm_locked (fun _ => .forAll .nil (fun _ _ => .append) (fun _ _ => nm_epSet _ _ _ _))


/-- All calls but `index_property` leave the metadata alone. -/
theorem nm_call (O : IdentOrder) (op : Op) (h : ∀ n, op ≠ .indexProperty n) :
    (callProg X O op).All NoMeta (fun _ => True) := by
  have map : ∀ {α : Type} {p : Prog α} (f : α → Reply), p.All NoMeta (fun _ => True) →
      (p >>= fun a => (pure (f a) : Prog Reply)).All NoMeta (fun _ => True) :=
    fun f h => h.bind (fun _ _ => trivial)
  cases op with
  | sync => trivial
  | createVertex v => exact map _ (nm_createVertex v)
  | createVertexFromType id t =>
    refine map _ ((nm_createVertex _).bind (fun b _ => ?_))
    cases b <;> trivial
  | createEdge e => exact map _ (nm_createEdge e)
  | get q => exact Quiet.of_reading (reading_get O q) _
  | delete q =>
    refine map _ ((Quiet.of_reading (rd_lastOutput q)).then (fun v => ?_))
    cases v with
    | vertices vs => exact nm_deleteVertices vs
    | edges es => exact nm_deleteEdges es
    | vertexProperties l => exact nm_deleteVertexProperties _
    | edgeProperties l => exact nm_deleteEdgeProperties _
    | count n => trivial
  | setProperties q n x =>
    refine map _ ((Quiet.of_reading (rd_lastOutput q)).then (fun v => ?_))
    cases v with
    | vertices vs => exact nm_setVertexProperties _ n x
    | edges es => exact nm_setEdgeProperties _ n x
    | _ => trivial
  | bulkInsert items => exact map _ (nm_bulkInsert items)
  | indexProperty n => exact absurd rfl (h n)

/-! ### Programs -/

/-- `Saves op ix md p`: the call `op` holding the write lock, with `ix` the set in memory and `md` the one on disk. If it ends
with success the two agree, and contain the name it indexes. -/
def Saves {α : Type} (op : Op) : SSet Identifier → SSet Identifier → Prog α → Prop
  | ix, md, .done r => ∃ n, op = .indexProperty n ∧ ∀ a, r = .ok a → md = ix ∧ md.contains n = true
  | ix, md, .get _ _ n => ∀ r, Saves op ix md (n r)
  | ix, md, .scan _ _ n => ∀ r, Saves op ix md (n r)
  | ix, md, .write b n => ∃ md', (NoMeta b ∧ md' = md ∨
      (∃ l, l.Perm md'.elems ∧ b.at .metadata metaKey = some (some (encodeIdents l))) ∧ Sub md md' ∧ md' = ix) ∧
      Saves op ix md' (n ())
  | ix, md, .setIndexed ix' n => Sub ix ix' ∧ Saves op ix' md (n ())
  | _, _, .readLock _ _ => False
  | _, _, .writeLock _ => False

/-- `Keep op md p`: the call `op` not holding the write lock, with `md` the set on disk. -/
def Keep {α : Type} (op : Op) (md : SSet Identifier) : Prog α → Prop
  | .done r => ∀ n a, op = .indexProperty n → r = .ok a → md.contains n = true
  | .get _ _ n => ∀ r, Keep op md (n r)
  | .scan _ _ n => ∀ r, Keep op md (n r)
  | .write b n => NoMeta b ∧ Keep op md (n ())
  | .readLock _ n => ∀ ix, Keep op md (n ix)
  | .writeLock n => (∃ m, op = .indexProperty m) ∧ ∀ ix, Saves op ix ix (n ix)
  | .setIndexed _ _ => False

theorem Keep.mono {α : Type} {op : Op} {md md' : SSet Identifier} {p : Prog α} (h : Keep op md p) (hs : Sub md md') :
    Keep op md' p := by
  induction p with
  | done r => exact fun n a h1 h2 => hs n (h n a h1 h2)
  | get cf k n ih => exact fun r => ih r (h r)
  | scan cf k n ih => exact fun r => ih r (h r)
  | write b n ih => exact ⟨h.1, ih () h.2⟩
  | readLock _ n ih => exact fun r => ih r (h r)
  | writeLock n ih => exact h
  | setIndexed x n ih => exact h

theorem keep_of_once {α : Type} {op : Op} {md : SSet Identifier} {p : Prog α} (h : p.Once) (ha : p.All NoMeta (fun _ => True))
    (hop : ∀ n, op ≠ .indexProperty n) : Keep op md p := by
  induction p with
  | done r => exact fun n a e _ => absurd e (hop n)
  | get cf k n ih => exact fun r => ih r (h r) (ha r)
  | scan cf k n ih => exact fun r => ih r (h r) (ha r)
  | write b n ih =>
    obtain ⟨a, e⟩ := h
    refine ⟨ha.1, ?_⟩
    rw [e]; exact fun n a e _ => absurd e (hop n)
  | readLock _ n ih => exact fun r => ih r (h r) (ha r)
  | writeLock n ih => exact h.elim
  | setIndexed x n ih => exact h.elim

/-- Programs that only read, then something. -/
theorem Saves.bind {α β : Type} {op : Op} {ix md : SSet Identifier} {p : Prog α} {f : α → Prog β} {Q : α → Prop} {n : Identifier}
    (hop : op = .indexProperty n) (h : p.Reading) (ht : p.Takes false) (ha : p.All (fun _ => True) Q)
    (hf : ∀ a, Q a → Saves op ix md (f a)) : Saves op ix md (p >>= f) := by
  show Saves op ix md (p.bind f)
  induction p with
  | done r => cases r with
    | ok a => exact hf a ha
    | error e => exact ⟨n, hop, fun a h => (nomatch h)⟩
  | get cf k n ih => exact fun r => ih r (h r) (ht r) (ha r)
  | scan cf k n ih => exact fun r => ih r (h r) (ht r) (ha r)
  | write b n ih => exact h.elim
  | readLock _ n ih => exact absurd ht.1.2 (by simp)
  | writeLock n ih => exact h.elim
  | setIndexed x n ih => exact h.elim

theorem Reading.any {α : Type} {p : Prog α} (h : p.Reading) : p.All (fun _ => True) (fun _ => True) := Quiet.of_reading h _

theorem keep_indexProperty (O : IdentOrder) (n : Identifier) (md : SSet Identifier) :
    Keep (.indexProperty n) md (callProg X O (.indexProperty n)) := by
  refine ⟨⟨n, rfl⟩, fun ix => ?_⟩
  show Saves _ _ _ (Prog.bind (if _ then _ else _) _)
  by_cases hx : ix.contains n = true
  · rw [if_pos hx]
    exact ⟨n, rfl, fun a _ => ⟨rfl, hx⟩⟩
  · rw [if_neg hx]
    refine ⟨.add ix n, ?_⟩
    have hn : (ix.add n).contains n = true := by rw [SSet.contains_add]; simp
    show Saves _ _ _ (Prog.bind (Prog.bind (vertexIterate X Uuid.nil) _) _)
    rw [Prog.bind_assoc']
    refine Saves.bind (n := n) rfl (rd_vertexIterate _) (tk_vertexIterate _) (Reading.any (rd_vertexIterate _)) (fun l _ => ?_)
    show Saves _ _ _ (Prog.bind (Prog.bind _ _) _)
    rw [Prog.bind_assoc']
    have r1 : (Prog.forItems (fun v : Vertex => do
        match ← vpGet X v.id n with
        | some x => return vpvSet X v.id n x
        | none => return []) l).Reading := Reading.forItems (fun v => (rd_vpGet _ _).bind (fun r => by cases r <;> trivial))
    refine Saves.bind (n := n) rfl r1 (Takes.forItems (fun v => (tk_vpGet _ _).bind (fun r => by cases r <;> trivial)))
      (All.forItems (B := NoMeta) .nil (fun _ _ => .append) (fun v _ => ?_)) (fun b1 h1 => ?_)
    · refine (quiet_vpGet _ _).then (fun r => ?_)
      cases r with
      | none => exact NoMeta.nil
      | some x => exact nm_put (by simp)
    show Saves _ _ _ (Prog.bind (Prog.bind _ _) _)
    rw [Prog.bind_assoc']
    refine Saves.bind (n := n) rfl (rd_edgeIterateAll _) (tk_edgeIterateAll _) (Reading.any (rd_edgeIterateAll _)) (fun l _ => ?_)
    show Saves _ _ _ (Prog.bind (Prog.bind _ _) _)
    rw [Prog.bind_assoc']
    have r2 : (Prog.forItems (fun e : Edge => do
        match ← epGet X e n with
        | some x => return epvSet X e n x
        | none => return []) l).Reading := Reading.forItems (fun v => (rd_epGet _ _).bind (fun r => by cases r <;> trivial))
    refine Saves.bind (n := n) rfl r2 (Takes.forItems (fun v => (tk_epGet _ _).bind (fun r => by cases r <;> trivial)))
      (All.forItems (B := NoMeta) .nil (fun _ _ => .append) (fun v _ => ?_)) (fun b2 h2 => ?_)
    · refine (quiet_epGet _ _).then (fun r => ?_)
      cases r with
      | none => exact NoMeta.nil
      | some x => exact nm_put (by simp)
    refine ⟨ix.add n, Or.inr ⟨⟨_, O.perm _, ?_⟩, .add ix n, rfl⟩, n, rfl, fun a _ => ⟨rfl, hn⟩⟩
    rw [Batch.at_append, Batch.at_append, h1, h2]
    simp [setIndexedBatch, Batch.at_singleton, WriteOp.at]

theorem keep_call (O : IdentOrder) (op : Op) (md : SSet Identifier) : Keep op md (callProg X O op) := by
  by_cases h : ∃ n, op = .indexProperty n
  · obtain ⟨n, rfl⟩ := h
    exact keep_indexProperty O n md
  · have h' : ∀ n, op ≠ .indexProperty n := fun n e => h ⟨n, e⟩
    exact keep_of_once (once_call O op h') (nm_call O op h') h'

/-! ### Loading -/

/-- The set on disk. -/
def OnDisk (kv : KV) (md : SSet Identifier) : Prop := (newDb (Dir.full kv)).2 = .ok ⟨kv, md⟩

theorem onDisk_iff {kv : KV} {md : SSet Identifier} : OnDisk kv md ↔ (getIndexed.run ⟨kv, SMap.empty⟩).2 = .ok md := by
  unfold OnDisk
  rw [newDb_full]
  simp only [load, Dir.full]
  cases h : (getIndexed.run ⟨kv, SMap.empty⟩).2 with
  | ok ix => simp
  | error f => simp

theorem OnDisk.same {kv : KV} {b : Batch} {md : SSet Identifier} (h : OnDisk kv md) (hb : NoMeta b) : OnDisk (kv.write b) md := by
  rw [onDisk_iff] at h ⊢
  have e : ((kv.write b) .metadata).get metaKey = (kv .metadata).get metaKey := by rw [KV.write_get, hb]; rfl
  cases hg : (kv .metadata).get metaKey with
  | none =>
    rw [getIndexed_none (s := ⟨kv, _⟩) hg] at h
    rw [getIndexed_none (s := ⟨kv.write b, _⟩) (e.trans hg)]; exact h
  | some x =>
    rw [getIndexed_some (s := ⟨kv, _⟩) hg] at h
    rw [getIndexed_some (s := ⟨kv.write b, _⟩) (e.trans hg)]; exact h

theorem OnDisk.put {kv : KV} {b : Batch} {md : SSet Identifier} {l : List Identifier} (hp : l.Perm md.elems)
    (hb : b.at .metadata metaKey = some (some (encodeIdents l))) (hl : md.elems.length < 2 ^ 64) : OnDisk (kv.write b) md := by
  rw [onDisk_iff]
  have e : ((kv.write b) .metadata).get metaKey = some (encodeIdents l) := by rw [KV.write_get, hb]; rfl
  rw [getIndexed_some (s := ⟨kv.write b, _⟩) e]
  exact decodeIdents_encode hp (hp.length_eq ▸ hl)

/-! ### Executions -/

/-- The set on disk is `md`. -/
structure MetaInv (s : Rocks) (h : List Ev) (S : Conc) (md : SSet Identifier) : Prop where
  disk : OnDisk S.db.kv md
  base : Sub s.indexed md
  sub : Sub md S.db.indexed
  free : S.writer = none → md = S.db.indexed
  writer : ∀ c p op, S.writer = some c → S.calls c = .running p → Ev.call c op ∈ h →
    (∃ n, op = .indexProperty n) ∧ Saves op S.db.indexed md p
  others : ∀ c p op, S.writer ≠ some c → S.calls c = .running p → Ev.call c op ∈ h → Keep op md p
  rets : ∀ c n a, Ev.call c (.indexProperty n) ∈ h → Ev.ret c (.ok a) ∈ h → md.contains n = true

/-- Indexing has not failed. -/
def NoFail (h : List Ev) (S : Conc) : Prop :=
  ∀ c n f, Ev.call c (.indexProperty n) ∈ h → S.writer = some c → S.calls c ≠ .running (.done (.error f))

theorem MetaInv.silent {s : Rocks} {h : List Ev} {S S' : Conc} {md : SSet Identifier} (H : MetaInv s h S md) {c : Nat} {p p' : Prog Reply}
    (hc : S.calls c = .running p) (h1 : S'.calls = setAt S.calls c (.running p')) (h2 : S'.writer = S.writer)
    (h3 : S'.db = S.db) (hk : S.writer ≠ some c → ∀ op, Keep op md p → Keep op md p')
    (hs : S.writer = some c → ∀ op ix, Saves op ix md p → Saves op ix md p') : MetaInv s (h ++ []) S' md := by
  rw [List.append_nil]
  refine ⟨by rw [h3]; exact H.disk, H.base, by rw [h3]; exact H.sub, by rw [h2, h3]; exact H.free, ?_, ?_, H.rets⟩
  · intro i q op hw hi hm
    rw [h1] at hi
    rw [h2] at hw
    rw [h3]
    rcases setAt_eq hi with ⟨e, hq⟩ | ⟨_, hq⟩
    · cases hq; subst e; exact (H.writer _ _ op hw hc hm).imp id (hs hw _ _)
    · exact H.writer i q op hw hq hm
  · intro i q op hw hi hm
    rw [h1] at hi
    rw [h2] at hw
    rcases setAt_eq hi with ⟨e, hq⟩ | ⟨_, hq⟩
    · cases hq; subst e; exact hk hw _ (H.others _ _ op hw hc hm)
    · exact H.others i q op hw hq hm

theorem MetaInv.step {s : Rocks} {h : List Ev} {S S' : Conc} {e : List Ev} {md : SSet Identifier} (H : MetaInv s h S md)
    (N : NamesInv s h S) (L : LockInv S) (F : NoFail h S) (hl : S.db.indexed.elems.length < 2 ^ 64) (hs : Conc.Step X S e S') :
    ∃ md', MetaInv s (h ++ e) S' md' := by
  cases hs with
  | call c O op hc =>
    have hw : S.writer ≠ some c := by
      intro hw
      obtain ⟨q, hq, _⟩ := L.writer c hw
      rw [hc] at hq; cases hq
    refine ⟨md, H.disk, H.base, H.sub, H.free, ?_, ?_, ?_⟩
    · intro i q op' hw' hi hm
      rcases setAt_eq hi with ⟨e, _⟩ | ⟨hne, hq⟩
      · subst e; exact absurd hw' hw
      · rcases List.mem_append.1 hm with hm | hm
        · exact H.writer i q op' hw' hq hm
        · simp at hm; exact absurd hm.1 hne
    · intro i q op' hw' hi hm
      rcases List.mem_append.1 hm with hm' | hm
      · rcases setAt_eq hi with ⟨e, _⟩ | ⟨hne, hq⟩
        · subst e; exact (N.unused i hc _ hm' rfl).elim
        · exact H.others i q op' hw' hq hm'
      · simp at hm
        obtain ⟨rfl, rfl⟩ := hm
        rcases setAt_eq hi with ⟨e, hq⟩ | ⟨hne, hq⟩
        · cases hq; exact keep_call O op' md
        · exact absurd rfl hne
    · intro i n a h1 h2
      have h2' : Ev.ret i (.ok a) ∈ h := by
        rcases List.mem_append.1 h2 with h2 | h2
        · exact h2
        · simp at h2
      rcases List.mem_append.1 h1 with h1 | h1
      · exact H.rets i n a h1 h2'
      · simp at h1
        obtain ⟨rfl, _⟩ := h1
        exact (N.unused i hc _ h2' rfl).elim
  | get c cf k n hc => exact ⟨md, H.silent hc rfl rfl rfl (fun _ op h => h _) (fun _ op ix h => h _)⟩
  | scan c cf k n hc => exact ⟨md, H.silent hc rfl rfl rfl (fun _ op h => h _) (fun _ op ix h => h _)⟩
  | readLock c held n hc hw => exact ⟨md, H.silent hc rfl rfl rfl (fun _ op h => h _) (fun _ op ix h => h.elim)⟩
  | write c b n hc =>
    obtain ⟨op, hop, _⟩ := N.calls c _ hc
    by_cases hw : S.writer = some c
    · obtain ⟨hi', md', hb, hn⟩ := H.writer c _ op hw hc hop
      have hsub : Sub md md' := hb.elim (fun h => h.2 ▸ .refl _) (·.2.1)
      have hsub' : Sub md' S.db.indexed := hb.elim (fun h => h.2 ▸ H.sub) (fun h => h.2.2 ▸ .refl _)
      refine ⟨md', ?_, H.base.trans hsub, hsub', ?_, ?_, ?_, ?_⟩
      · rcases hb with ⟨hb, rfl⟩ | ⟨⟨l, hp, hb⟩, _, rfl⟩
        · exact H.disk.same hb
        · exact OnDisk.put hp hb hl
      · intro hw'
        have : S.writer = none := hw'
        rw [hw] at this; cases this
      · intro i q op' hw' hi hm
        have hw' : S.writer = some i := hw'
        rw [List.append_nil] at hm
        rw [hw] at hw'; cases hw'
        rcases setAt_eq hi with ⟨_, hq⟩ | ⟨hne, _⟩
        · cases hq
          obtain ⟨op'', h1, h2, _⟩ := N.calls c _ hc
          have e1 := h2 op' hm
          have e2 := h2 op hop
          rw [e1, ← e2]; exact ⟨hi', hn⟩
        · exact absurd rfl hne
      · intro i q op' hw' hi hm
        rw [List.append_nil] at hm
        rcases setAt_eq hi with ⟨e, _⟩ | ⟨_, hq⟩
        · subst e; exact absurd hw hw'
        · exact (H.others i q op' hw' hq hm).mono hsub
      · intro i n a h1 h2
        rw [List.append_nil] at h1 h2
        exact hsub n (H.rets i n a h1 h2)
    · refine ⟨md, H.disk.same (H.others c _ op hw hc hop).1, H.base, H.sub, H.free, ?_, ?_, by rw [List.append_nil]; exact H.rets⟩
      · intro i q op' hw' hi hm
        rw [List.append_nil] at hm
        rcases setAt_eq hi with ⟨e, _⟩ | ⟨_, hq⟩
        · subst e; exact absurd hw' hw
        · exact H.writer i q op' hw' hq hm
      · intro i q op' hw' hi hm
        rw [List.append_nil] at hm
        rcases setAt_eq hi with ⟨e, hq⟩ | ⟨_, hq⟩
        · cases hq; subst e; exact (H.others i _ op' hw' hc hm).2
        · exact H.others i q op' hw' hq hm
  | writeLock c n hc hw hr =>
    have e := H.free hw
    refine ⟨md, H.disk, H.base, H.sub, (fun h => by cases h), ?_, ?_, by rw [List.append_nil]; exact H.rets⟩
    · intro i q op' hw' hi hm
      rw [List.append_nil] at hm
      cases hw'
      rcases setAt_eq hi with ⟨_, hq⟩ | ⟨hne, _⟩
      · cases hq
        have := H.others c _ op' (by rw [hw]; simp) hc hm
        rw [e]
        exact ⟨this.1, this.2 _⟩
      · exact absurd rfl hne
    · intro i q op' hw' hi hm
      rw [List.append_nil] at hm
      rcases setAt_eq hi with ⟨e, _⟩ | ⟨_, hq⟩
      · subst e; exact absurd rfl hw'
      · exact H.others i q op' (by rw [hw]; simp) hq hm
  | setIndexed c ix n hc =>
    obtain ⟨op, hop, hu, _⟩ := N.calls c _ hc
    by_cases hw : S.writer = some c
    · obtain ⟨hi', hsub, hn⟩ := H.writer c _ op hw hc hop
      refine ⟨md, H.disk, H.base, H.sub.trans hsub, ?_, ?_, ?_, by rw [List.append_nil]; exact H.rets⟩
      · intro hw'
        have : S.writer = none := hw'
        rw [hw] at this; cases this
      · intro i q op' hw' hi hm
        have hw' : S.writer = some i := hw'
        rw [List.append_nil] at hm
        rw [hw] at hw'; cases hw'
        rcases setAt_eq hi with ⟨_, hq⟩ | ⟨hne, _⟩
        · cases hq
          rw [hu op' hm]; exact ⟨hi', hn⟩
        · exact absurd rfl hne
      · intro i q op' hw' hi hm
        rw [List.append_nil] at hm
        rcases setAt_eq hi with ⟨e, _⟩ | ⟨_, hq⟩
        · subst e; exact absurd hw hw'
        · exact H.others i q op' hw' hq hm
    · exact (H.others c _ op hw hc hop).elim
  | unlock c r hc hw =>
    obtain ⟨op, hop, hu, _⟩ := N.calls c _ hc
    obtain ⟨_, n, rfl, hn⟩ := H.writer c _ op hw hc hop
    cases r with
    | error f => exact absurd hc (F c n f hop hw)
    | ok a =>
      obtain ⟨e, hmn⟩ := hn a rfl
      refine ⟨md, H.disk, H.base, H.sub, fun _ => e, (fun i q op' h => by cases h), ?_, by rw [List.append_nil]; exact H.rets⟩
      intro i q op' _ hi hm
      rw [List.append_nil] at hm
      by_cases hic : i = c
      · subst hic
        have hi : S.calls i = .running q := hi
        rw [hc] at hi; cases hi
        intro m b h1 h2
        have := hu op' hm
        rw [h1] at this
        cases this
        exact hmn
      · exact H.others i q op' (by rw [hw]; intro e; cases e; exact hic rfl) hi hm
  | unlockRead c r hc hr => exact ⟨md, H.disk, H.base, H.sub, H.free, by rw [List.append_nil]; exact H.writer,
      by rw [List.append_nil]; exact H.others, by rw [List.append_nil]; exact H.rets⟩
  | ret c r hc hw hr =>
    have old : ∀ {i : Nat} {op : Op}, Ev.call i op ∈ h ++ [Ev.ret c r] → Ev.call i op ∈ h := by
      intro i op hm
      rcases List.mem_append.1 hm with hm | hm
      · exact hm
      · simp at hm
    refine ⟨md, H.disk, H.base, H.sub, H.free, ?_, ?_, ?_⟩
    · intro i q op hw' hi hm
      rcases setAt_eq hi with ⟨_, hq⟩ | ⟨_, hq⟩
      · cases hq
      · exact H.writer i q op hw' hq (old hm)
    · intro i q op hw' hi hm
      rcases setAt_eq hi with ⟨_, hq⟩ | ⟨_, hq⟩
      · cases hq
      · exact H.others i q op hw' hq (old hm)
    · intro i n a h1 h2
      have h1' := old h1
      rcases List.mem_append.1 h2 with h2 | h2
      · exact H.rets i n a h1' h2
      · simp at h2
        obtain ⟨rfl, rfl⟩ := h2
        exact H.others i _ _ hw hc h1' n a rfl rfl

theorem Exec.toFaulty' {s : Rocks} {h : List Ev} {S : Conc} (hx : Exec X s h S) : FaultyExec X s h S :=
  (Steps.ofExec hx).faulty (X := X) (fun _ _ _ h => .fine h)

/-- Indexing does not fail. -/
theorem noFail {hs : List (List Ev)} {s : Rocks} (hl : FaultyLife X hs s) (hv : ∀ h ∈ hs, OkCalls (CanRead X) h)
    {h : List Ev} {S : Conc} (hx : Exec X s h S) (ho : OkCalls (CanRead X) h) : NoFail h S := by
  intro c n f hc hw hr
  have key : ∀ S' : Conc, Exec X s h S' → S'.calls c = .running (.done (.error f)) → S'.writer ≠ some c → c ∉ S'.readers → False := by
    intro S' hx' hr' hw' hd'
    have hx2 := hx'.snoc (.ret _ c _ hr' hw' hd')
    have ho' : OkCalls (CanRead X) (h ++ [Ev.ret c (.error f)]) := by
      intro i op hm
      rcases List.mem_append.1 hm with hm | hm
      · exact ho i op hm
      · simp at hm
    obtain ⟨e, _, he⟩ := C65_rocks hs s hl hv [] _ _ hx2 ho' c (.indexProperty n) (List.mem_append_left _ hc) f (by simp)
    cases e with
    | notIndexed => obtain ⟨m, hm, _⟩ := he; cases hm
    | operationOnQuery => exact he trivial
    | uuidTaken => obtain ⟨id, t, he⟩ := he; cases he
    | _ => exact he
  have hx1 := hx.snoc (.unlock _ c _ hr hw)
  rw [List.append_nil] at hx1
  by_cases hd : c ∈ S.readers
  · have hx2 := hx1.snoc (.unlockRead _ c _ hr hd)
    rw [List.append_nil] at hx2
    exact key _ hx2 hr (by simp) (by simp)
  · exact key _ hx1 hr (by simp) hd

theorem length_le_of_nodup {α : Type} [DecidableEq α] : ∀ (l m : List α), l.Nodup → l ⊆ m → l.length ≤ m.length
  | [], _, _, _ => Nat.zero_le _
  | a :: r, m, hd, hs => by
    have ha : a ∈ m := hs List.mem_cons_self
    have hr : r ⊆ m.erase a := by
      intro x hx
      have hne : x ≠ a := by rintro rfl; exact (List.nodup_cons.1 hd).1 hx
      exact (List.mem_erase_of_ne hne).2 (hs (List.mem_cons_of_mem _ hx))
    have := length_le_of_nodup r (m.erase a) (List.nodup_cons.1 hd).2 hr
    rw [List.length_erase_of_mem ha] at this
    have := List.length_pos_of_mem ha
    simp only [List.length_cons]
    omega

theorem sub_length {a b : SSet Identifier} (h : Sub a b) : a.elems.length ≤ b.elems.length := by
  refine length_le_of_nodup _ _ (SSet.nodup_elems a) (fun x hx => ?_)
  rw [SSet.mem_elems] at hx ⊢
  exact h x hx

/-- At the beginning of a session the sets agree. -/
theorem onDisk_life {hs : List (List Ev)} {s : Rocks} (hl : FaultyLife X hs s) : OnDisk s.kv s.indexed := by
  cases hl with
  | new h =>
    cases h
    exact onDisk_iff.2 (getIndexed_none rfl)
  | again k _ hx ht =>
    generalize List.foldl (fun (kv : KV) (x : Nat × Batch) => kv.write x.2) _ _ = kv at ht
    have hk : s.kv = kv := by
      rw [newDb_full] at ht
      simp only [load, Dir.full] at ht
      split at ht
      · cases ht; rfl
      · cases ht
    subst hk
    exact ht

theorem MetaInv.exec {hs : List (List Ev)} {s : Rocks} (hl : FaultyLife X hs s) (hv : ∀ h ∈ hs, OkCalls (CanRead X) h)
    {h : List Ev} {S : Conc} (hx : Exec X s h S) (ho : OkCalls (CanRead X) h) (hn : S.db.indexed.elems.length < 2 ^ 64) :
    ∃ md, MetaInv s h S md := by
  induction hx with
  | nil =>
    exact ⟨s.indexed, onDisk_life hl, .refl _, .refl _, fun _ => rfl, (fun c p op h => by cases h), (fun c p op _ h => by cases h),
      fun c n a h => (nomatch h)⟩
  | @snoc h S S' e hx ht ih =>
    have ho' : OkCalls (CanRead X) h := fun c op hm => ho c op (List.mem_append_left _ hm)
    have F := Exec.toFaulty' hx
    have N := NamesInv.exec F
    have L := LockInv.exec F
    have hn' := Nat.lt_of_le_of_lt (sub_length (N.step L ht).2) hn
    obtain ⟨md, H⟩ := ih ho' hn'
    exact H.step N L (noFail hl hv hx ho') hn' ht

/-- A call under way has not returned. -/
theorem running_no_ret {s : Rocks} {h : List Ev} {S : Conc} (hx : FaultyExec X s h S) :
    ∀ c p, S.calls c = .running p → ∀ r, Ev.ret c r ∉ h := by
  induction hx with
  | nil => exact fun c p h => by cases h
  | @snoc h S S' e hx ht ih =>
    intro i q hi r hr
    have N := NamesInv.exec hx
    have set : ∀ {c : Nat} {x : RCall} {p : Prog Reply}, S.calls c = .running p → setAt S.calls c x i = .running q →
        ∃ q', S.calls i = .running q' := by
      intro c x p hc hi
      rcases setAt_eq hi with ⟨e, _⟩ | ⟨_, hq⟩
      · subst e; exact ⟨_, hc⟩
      · exact ⟨_, hq⟩
    have start : ∀ {c : Nat} {x : RCall} {op : Op}, S.calls c = .unused → setAt S.calls c x i = .running q →
        Ev.ret i r ∈ h ++ [Ev.call c op] → False := by
      intro c x op hc hi hr
      have hr' : Ev.ret i r ∈ h := by simpa using hr
      rcases setAt_eq hi with ⟨e, _⟩ | ⟨_, hq⟩
      · subst e; exact N.unused i hc _ hr' rfl
      · exact ih i _ hq r hr'
    cases ht with
    | fine ht => cases ht with
      | call c O op hc => exact start hc hi hr
      | ret c r' hc hw hd =>
        rcases setAt_eq hi with ⟨_, hq⟩ | ⟨hne, hq⟩
        · cases hq
        · rcases List.mem_append.1 hr with hr | hr
          · exact ih i _ hq r hr
          · simp at hr; exact hne hr.1
      | unlock c r' hc hw => exact ih i q hi r (by simpa using hr)
      | unlockRead c r' hc hw => exact ih i q hi r (by simpa using hr)
      | get c cf k n hc => obtain ⟨q', hq⟩ := set hc hi; exact ih i _ hq r (by simpa using hr)
      | scan c cf k n hc => obtain ⟨q', hq⟩ := set hc hi; exact ih i _ hq r (by simpa using hr)
      | write c b n hc => obtain ⟨q', hq⟩ := set hc hi; exact ih i _ hq r (by simpa using hr)
      | readLock c held n hc hw => obtain ⟨q', hq⟩ := set hc hi; exact ih i _ hq r (by simpa using hr)
      | writeLock c n hc hw hd => obtain ⟨q', hq⟩ := set hc hi; exact ih i _ hq r (by simpa using hr)
      | setIndexed c ix n hc => obtain ⟨q', hq⟩ := set hc hi; exact ih i _ hq r (by simpa using hr)
    | getFails c cf k n hc => obtain ⟨q', hq⟩ := set hc hi; exact ih i _ hq r (by simpa using hr)
    | scanFails c j cf lo n hc => obtain ⟨q', hq⟩ := set hc hi; exact ih i _ hq r (by simpa using hr)
    | writeFails c b n hc => obtain ⟨q', hq⟩ := set hc hi; exact ih i _ hq r (by simpa using hr)
    | flushFails c hc => exact start hc hi hr

end Rocks
end IndraDB
