import Verif.Proofs.RocksMeta
/-
`index_property` while other calls overlap enters every owner of the property.
-/
set_option linter.unusedSimpArgs false
namespace IndraDB

namespace Rocks
open Prog Conc LockConc
variable {X : Cfg} {P : Batch → Prop}

/-! ### Batches that do not put a key -/

/-- The batch does not put key `k` of `cf`. -/
def Lacks (cf : CF) (k : Bytes) (b : Batch) : Prop := ∀ x, .put cf k x ∉ b

variable {cf : CF} {key : Bytes}

theorem Lacks.nil : Lacks cf key [] := fun _ h => nomatch h
theorem Lacks.append {a b : Batch} (ha : Lacks cf key a) (hb : Lacks cf key b) : Lacks cf key (a ++ b) := fun x h =>
  (List.mem_append.1 h).elim (ha x) (hb x)
theorem lk_put {cf' : CF} {k v : Bytes} (h : ¬ (cf' = cf ∧ k = key)) : Lacks cf key [.put cf' k v] := fun x hx => by
  simp only [List.mem_singleton, WriteOp.put.injEq] at hx
  exact h ⟨hx.1.symm, hx.2.1.symm⟩
theorem lk_delete {cf' : CF} {k : Bytes} : Lacks cf key [.delete cf' k] := fun x hx => by simp at hx

/-- Then a missing key remains missing. -/
theorem Lacks.at {b : Batch} (h : Lacks cf key b) (x : Bytes) : b.at cf key ≠ some (some x) := by
  induction b with
  | nil => intro e; cases e
  | cons op r ih =>
    rw [Batch.at_cons]
    have h1 := ih (fun x hx => h x (List.mem_cons_of_mem _ hx))
    cases hr : Batch.at r cf key with
    | some y => rw [hr] at h1; simpa using h1
    | none =>
      rw [Option.none_or]
      cases op with
      | put c k v =>
        show (if _ then _ else _) ≠ _
        split
        next he =>
          obtain ⟨rfl, rfl⟩ := he
          exact absurd List.mem_cons_self (h v)
        · simp
      | delete c k =>
        show (if _ then _ else _) ≠ _
        split <;> simp

theorem Lacks.missing {b : Batch} {kv : KV} (h : Lacks cf key b) (hk : (kv cf).contains key = false) :
    (kv.write b cf).contains key = false := by
  rw [contains_write]
  cases hb : b.at cf key with
  | none => exact hk
  | some y =>
    cases y with
    | none => rfl
    | some y => exact absurd hb (h.at y)

/-- Keys in tables that the methods below do not put at all. -/
def Table (cf : CF) : Prop := cf = .vertices ∨ cf = .edgeRanges

theorem lk_vpDelete (ix : SSet Identifier) (id : Uuid) (n : Identifier) : (vpDelete X ix id n).All P (Lacks cf key) := by
  unfold vpDelete
  refine Prog.All.bind (Q := Lacks cf key) ?_ (fun b hb => hb.append lk_delete)
  split
  · refine (quiet_vpGet _ _).then ?_
    intro r
    cases r with
    | none => exact .nil
    | some v => exact lk_delete
  · exact .nil

theorem lk_vpSet (hc : Table cf) (ix : SSet Identifier) (id : Uuid) (n : Identifier) (v : Json) :
    (vpSet X ix id n v).All P (Lacks cf key) := by
  have hd : Lacks cf key [.put .vertexProperties (vpKey X id n) (X.codec.enc v)] :=
    lk_put (by rcases hc with rfl | rfl <;> simp)
  unfold vpSet
  refine Prog.All.bind (Q := Lacks cf key) ?_ (fun b hb => ?_)
  · split
    · exact lk_vpDelete _ _ _
    · exact .nil
  · show Lacks cf key (if _ then _ else _)
    split
    · exact (hb.append hd).append (lk_put (by rcases hc with rfl | rfl <;> simp))
    · exact hb.append hd

theorem lk_epDelete (ix : SSet Identifier) (e : Edge) (n : Identifier) : (epDelete X ix e n).All P (Lacks cf key) := by
  unfold epDelete
  refine Prog.All.bind (Q := Lacks cf key) ?_ (fun b hb => hb.append lk_delete)
  split
  · refine (quiet_epGet _ _).then ?_
    intro r
    cases r with
    | none => exact .nil
    | some v => exact lk_delete
  · exact .nil

theorem lk_epSet (hc : Table cf) (ix : SSet Identifier) (e : Edge) (n : Identifier) (v : Json) :
    (epSet X ix e n v).All P (Lacks cf key) := by
  have hd : Lacks cf key [.put .edgeProperties (epKey X e n) (X.codec.enc v)] :=
    lk_put (by rcases hc with rfl | rfl <;> simp)
  unfold epSet
  refine Prog.All.bind (Q := Lacks cf key) ?_ (fun b hb => ?_)
  · split
    · exact lk_epDelete _ _ _
    · exact .nil
  · show Lacks cf key (if _ then _ else _)
    split
    · exact (hb.append hd).append (lk_put (by rcases hc with rfl | rfl <;> simp))
    · exact hb.append hd

theorem lk_edgeSet (e : Edge) (hc : Table cf) (h : ¬ (cf = .edgeRanges ∧ edgeKey X e = key)) :
    (edgeSet X e).All P (Lacks cf key) := by
  unfold edgeSet
  refine (quiet_edgeContains _ _).then ?_
  intro r
  show Lacks cf key _
  rw [List.append_assoc]
  refine Lacks.append ?_ ((lk_put (fun e => h ⟨e.1.symm, e.2⟩)).append (lk_put (by rcases hc with rfl | rfl <;> simp)))
  split
  · exact lk_delete.append lk_delete
  · exact .nil

theorem lk_edgeDelete (ix : SSet Identifier) (e : Edge) : (edgeDelete X ix e).All P (Lacks cf key) := by
  unfold edgeDelete
  refine (quiet_epIterate _).then ?_
  intro l
  refine Prog.All.bind (Q := Lacks cf key) (.forItems .nil (fun _ _ => .append) (fun _ _ => lk_epDelete _ _ _)) ?_
  intro b hb
  exact (lk_delete.append lk_delete).append hb

theorem lk_vertexDelete (ix : SSet Identifier) (id : Uuid) : (vertexDelete X ix id).All P (Lacks cf key) := by
  have he : ∀ (l : DynIter Edge), (Prog.forItems (fun e => do
      Prog.lift (debugAssert X (e.outboundId = id))
      edgeDelete X ix e) l).All P (Lacks cf key) := by
    intro l
    refine .forItems .nil (fun _ _ => .append) (fun e _ => ?_)
    exact (quiet_lift _).then (fun _ => lk_edgeDelete _ _)
  unfold vertexDelete
  refine (quiet_vpIterate _).then (fun l => ?_)
  refine Prog.All.bind (Q := Lacks cf key) (.forItems .nil (fun _ _ => .append) (fun _ _ => lk_vpDelete _ _ _)) ?_
  intro b1 h1
  refine (quiet_edgeIterateRoot _ _).then (fun l => ?_)
  refine (he l).bind (fun b2 h2 => ?_)
  refine (quiet_edgeIterateRoot _ _).then (fun l => ?_)
  refine (he l).bind (fun b3 h3 => ?_)
  exact ((lk_delete.append h1).append h2).append h3

theorem lk_locked {f : SSet Identifier → Prog Batch} (h : ∀ ix, (f ix).All (Lacks cf key) (Lacks cf key)) :
    (locked f).All (Lacks cf key) (fun _ => True) := by
  intro ix
  exact (h ix).bind (fun b hb => .writeBatch hb)

theorem lk_indexProperty (hc : Table cf) (O : IdentOrder) (n : Identifier) :
    (indexProperty X O n).All (Lacks cf key) (fun _ => True) := by
  intro ix
  show Prog.All _ _ (if _ then _ else _)
  split
  · trivial
  · refine (quiet_vertexIterate Uuid.nil).then (fun l => ?_)
    refine Prog.All.bind (Q := Lacks cf key) (.forItems .nil (fun _ _ => .append) (fun v _ => ?_)) (fun b1 h1 => ?_)
    · refine (quiet_vpGet _ _).then (fun r => ?_)
      cases r with
      | none => exact Lacks.nil
      | some x => exact lk_put (by rcases hc with rfl | rfl <;> simp)
    · refine (quiet_edgeIterateAll _).then (fun l => ?_)
      refine Prog.All.bind (Q := Lacks cf key) (.forItems .nil (fun _ _ => .append) (fun v _ => ?_)) (fun b2 h2 => ?_)
      · refine (quiet_epGet _ _).then (fun r => ?_)
        cases r with
        | none => exact Lacks.nil
        | some x => exact lk_put (by rcases hc with rfl | rfl <;> simp)
      · exact ⟨((lk_put (by rcases hc with rfl | rfl <;> simp)).append h1).append h2, trivial⟩

/-! ### Owners -/

/-- Where the owner is recorded. -/
def oTable : Owner → CF
  | .vertex _ => .vertices
  | .edge _ => .edgeRanges
def oKey (X : Cfg) : Owner → Bytes
  | .vertex i => vertexKey X i
  | .edge e => edgeKey X e
/-- Where its properties are. -/
def pTable : Owner → CF
  | .vertex _ => .vertexProperties
  | .edge _ => .edgeProperties
def pKey (X : Cfg) (n : Identifier) : Owner → Bytes
  | .vertex i => vpKey X i n
  | .edge e => epKey X e n
/-- Where its index entries are. -/
def eTable : Owner → CF
  | .vertex _ => .vertexPropertyValues
  | .edge _ => .edgePropertyValues
def eKey (X : Cfg) (n : Identifier) (h : UInt64) : Owner → Bytes
  | .vertex i => vhKey n h i
  | .edge e => ehKey X n h e

theorem oTable_table (o : Owner) : Table (oTable o) := by cases o <;> simp [oTable, Table]

/-- A call that does not create the owner does not put its key. -/
theorem lk_call (O : IdentOrder) (op : Op) (o : Owner) (h : ¬ op.Creates o) :
    (callProg X O op).All (Lacks (oTable o) (oKey X o)) (fun _ => True) := by
  have hc := oTable_table o
  have map : ∀ {α : Type} {p : Prog α} (f : α → Reply), p.All (Lacks (oTable o) (oKey X o)) (fun _ => True) →
      (p >>= fun a => (pure (f a) : Prog Reply)).All (Lacks (oTable o) (oKey X o)) (fun _ => True) :=
    fun f h => h.bind (fun _ _ => trivial)
  have vk : ∀ (v : Vertex), o ≠ .vertex v.id → ∀ x, Lacks (oTable o) (oKey X o) [.put .vertices (vertexKey X v.id) x] := by
    intro v hv x
    refine lk_put (fun e => ?_)
    cases o with
    | vertex i =>
      have e := e.2
      simp only [oKey, vertexKey_eq] at e
      exact hv (congrArg Owner.vertex (by cases v with | mk id t => cases id; cases i; simp at e; subst e; rfl))
    | edge e' => simp [oTable] at e
  have cv : ∀ v : Vertex, o ≠ .vertex v.id → (createVertex X v).All (Lacks (oTable o) (oKey X o)) (fun _ => True) := by
    intro v hv
    refine (quiet_vertexExists _).then (fun r => ?_)
    split
    · trivial
    · exact ⟨vk v hv _, trivial⟩
  have ek : ∀ e : Edge, o ≠ .edge e → ∀ P, (edgeSet X e).All P (Lacks (oTable o) (oKey X o)) := by
    intro e he P
    refine lk_edgeSet e hc (fun hk => ?_)
    cases o with
    | vertex i => simp [oTable] at hk
    | edge e' => exact he (congrArg Owner.edge (edgeKey_inj.1 hk.2.symm))
  cases op with
  | sync => trivial
  | createVertex v => exact map _ (cv v (by rintro rfl; exact h rfl))
  | createVertexFromType id t =>
    refine map _ ((cv ⟨id, t⟩ (by rintro rfl; exact h rfl)).bind (fun b _ => ?_))
    cases b <;> trivial
  | createEdge e =>
    refine map _ ?_
    refine (quiet_vertexExists _).then (fun r => ?_)
    split
    · trivial
    · refine (quiet_vertexExists _).then (fun r => ?_)
      split
      · trivial
      · exact (ek e (by rintro rfl; exact h rfl) _).bind (fun b hb => ⟨hb, trivial⟩)
  | get q => exact Quiet.of_reading (reading_get O q) _
  | delete q =>
    refine map _ ((Quiet.of_reading (rd_lastOutput q)).then (fun v => ?_))
    cases v with
    | vertices vs => exact lk_locked (fun _ => .forAll .nil (fun _ _ => .append) (fun _ _ => lk_vertexDelete _ _))
    | edges es =>
      refine lk_locked (fun ix => .forAll .nil (fun _ _ => .append) (fun e _ => ?_))
      refine (quiet_vertexGet _).then (fun r => ?_)
      cases r with
      | none => exact Lacks.nil
      | some t => exact lk_edgeDelete _ _
    | vertexProperties l => exact lk_locked (fun _ => .forAll .nil (fun _ _ => .append) (fun _ _ => lk_vpDelete _ _ _))
    | edgeProperties l => exact lk_locked (fun _ => .forAll .nil (fun _ _ => .append) (fun _ _ => lk_epDelete _ _ _))
    | count n => trivial
  | setProperties q n x =>
    refine map _ ((Quiet.of_reading (rd_lastOutput q)).then (fun v => ?_))
    cases v with
    | vertices vs => exact lk_locked (fun _ => .forAll .nil (fun _ _ => .append) (fun _ _ => lk_vpSet hc _ _ _ _))
    | edges es => exact lk_locked (fun _ => .forAll .nil (fun _ _ => .append) (fun _ _ => lk_epSet hc _ _ _ _))
    | _ => trivial
  | bulkInsert items =>
    refine map _ (lk_locked (fun ix => .forAll .nil (fun _ _ => .append) (fun i hi => ?_)))
    cases i with
    | vertex v => exact vk v (by rintro rfl; exact h ⟨v.t, hi⟩) _
    | edge e => exact ek e (by rintro rfl; exact h hi) _
    | vertexProperty id n v => exact lk_vpSet hc _ _ _ _
    | edgeProperty id n v => exact lk_epSet hc _ _ _ _
  | indexProperty n => exact map _ (lk_indexProperty hc O n)

/-! ### Phases of a call -/

section
variable {R : Json → UInt64 → Prop} {n : Identifier} {o : Owner}

/-- The batch touches neither property `n` of the owner nor its index entries, and does not delete the owner. -/
structure Free (X : Cfg) (n : Identifier) (o : Owner) (b : Batch) : Prop where
  prop : b.at (pTable o) (pKey X n o) = none
  entries : ∀ h, b.at (eTable o) (eKey X n h o) = none
  alive : b.at (oTable o) (oKey X o) ≠ some none

/-- Databases that can be read, in which the owner exists and its property `n` is stored as `bytes`. -/
structure Good (X : Cfg) (n : Identifier) (o : Owner) (bytes : Bytes) (kv : KV) : Prop where
  wf : Wf X kv
  values : Values X (CanRead X) kv
  alive : (kv (oTable o)).contains (oKey X o) = true
  prop : (kv (pTable o)).get (pKey X n o) = some bytes

/-- Every value of property `n` of the owner has an index entry. -/
def Entered (X : Cfg) (R : Json → UInt64 → Prop) (n : Identifier) (o : Owner) (kv : KV) : Prop :=
  ∀ b w, (kv (pTable o)).get (pKey X n o) = some b → X.codec.dec b = some w →
    ∃ h, R w h ∧ (kv (eTable o)).contains (eKey X n h o) = true

/-- With the owner and its property (`bytes`, read as `w`) staying as they are, the program is going to write a batch with the
index entry. -/
def Fills (X : Cfg) (R : Json → UInt64 → Prop) (n : Identifier) (o : Owner) (bytes : Bytes) (w : Json) {α : Type} : Prog α → Prop
  | .done _ => False
  | .get cf k f => ∀ kv, Good X n o bytes kv → Fills X R n o bytes w (f ((kv cf).get k))
  | .scan cf lo f => ∀ kv, Good X n o bytes kv → Fills X R n o bytes w (f (((kv cf).rangeFrom lo).map .ok))
  | .write b _ => b.at (pTable o) (pKey X n o) = none ∧ ∃ h x, R w h ∧ b.at (eTable o) (eKey X n h o) = some (some x)
  | _ => False

/-- The program only reads; and with the owner and its property staying as they are, it ends with a value satisfying `Q`. -/
def Sees (X : Cfg) (n : Identifier) (o : Owner) (bytes : Bytes) {α : Type} (Q : α → Prop) : Prog α → Prop
  | .done (.ok a) => Q a
  | .get cf k f => ∀ kv, Good X n o bytes kv → Sees X n o bytes Q (f ((kv cf).get k))
  | .scan cf lo f => ∀ kv, Good X n o bytes kv → Sees X n o bytes Q (f (((kv cf).rangeFrom lo).map .ok))
  | _ => False

/-- A call holding a lock, the write lock iff `wr`, when the set of indexed names is `ix`. -/
def Holds (X : Cfg) (R : Json → UInt64 → Prop) (n : Identifier) (o : Owner) (wr : Bool) {α : Type} : SSet Identifier → Prog α → Prop
  | _, .done _ => True
  | ix, .get _ _ f => ∀ r, Holds X R n o wr ix (f r)
  | ix, .scan _ _ f => ∀ r, Holds X R n o wr ix (f r)
  | ix, .write b f => (Has n ix → Keeps X R n b) ∧ Holds X R n o wr ix (f ())
  | ix, .setIndexed ix' f => wr = true ∧ (Has n ix → Has n ix') ∧
      (¬ Has n ix → Has n ix' → ∀ b w, X.codec.dec b = some w → Fills X R n o b w (f ())) ∧ Holds X R n o wr ix' (f ())
  | _, .readLock _ _ => False
  | _, .writeLock _ => False

/-- A call holding no lock. -/
def Waits (X : Cfg) (R : Json → UInt64 → Prop) (n : Identifier) (o : Owner) {α : Type} : Prog α → Prop
  | .done _ => True
  | .get _ _ f => ∀ r, Waits X R n o (f r)
  | .scan _ _ f => ∀ r, Waits X R n o (f r)
  | .write b f => Free X n o b ∧ Waits X R n o (f ())
  | .readLock false f => ∀ ix, Waits X R n o (f ix)
  | .readLock true f => ∀ ix, Holds X R n o false ix (f ix)
  | .writeLock f => ∀ ix, Holds X R n o true ix (f ix)
  | .setIndexed _ _ => False

variable {α β : Type} {bytes : Bytes} {w : Json} {ix : SSet Identifier} {wr : Bool}

theorem Sees.fills {Q : α → Prop} {p : Prog α} {f : α → Prog β} (h : Sees X n o bytes Q p)
    (hf : ∀ a, Q a → Fills X R n o bytes w (f a)) : Fills X R n o bytes w (p >>= f) := by
  show Fills X R n o bytes w (p.bind f)
  induction p with
  | done r => cases r with
    | ok a => exact hf a h
    | error e => exact h.elim
  | get cf k g ih => exact fun kv hk => ih _ (h kv hk)
  | scan cf k g ih => exact fun kv hk => ih _ (h kv hk)
  | _ => exact h.elim

theorem Sees.bind {Q : α → Prop} {Q' : β → Prop} {p : Prog α} {f : α → Prog β} (h : Sees X n o bytes Q p)
    (hf : ∀ a, Q a → Sees X n o bytes Q' (f a)) : Sees X n o bytes Q' (p >>= f) := by
  show Sees X n o bytes Q' (p.bind f)
  induction p with
  | done r => cases r with
    | ok a => exact hf a h
    | error e => exact h.elim
  | get cf k g ih => exact fun kv hk => ih _ (h kv hk)
  | scan cf k g ih => exact fun kv hk => ih _ (h kv hk)
  | _ => exact h.elim

/-- A program of one read. -/
theorem Sees.ofScan {Q : α → Prop} {cf : CF} {lo : Bytes} {f : DynIter (Bytes × Bytes) → Res α}
    (h : ∀ kv, Good X n o bytes kv → ∃ a, (Prog.scan cf lo (fun r => .done (f r))).run ⟨kv, SMap.empty⟩ = (⟨kv, SMap.empty⟩, .ok a) ∧ Q a) :
    Sees X n o bytes Q (.scan cf lo (fun r => .done (f r))) := by
  intro kv hk
  obtain ⟨a, h1, h2⟩ := h kv hk
  have h1 : f (((kv cf).rangeFrom lo).map .ok) = .ok a := congrArg Prod.snd h1
  show Sees X n o bytes Q (.done (f _))
  rw [h1]; exact h2

theorem Holds.bind {Q : α → Prop} {p : Prog α} {f : α → Prog β} (hr : p.Reading) (ht : p.Takes false)
    (hq : Has n ix → p.AllIf (Has n) (Keeps X R n) Q) (hf : ∀ a, (Has n ix → Q a) → Holds X R n o wr ix (f a)) :
    Holds X R n o wr ix (p >>= f) := by
  show Holds X R n o wr ix (p.bind f)
  induction p with
  | done r => cases r with
    | ok a => exact hf a hq
    | error e => trivial
  | get cf k g ih => exact fun r => ih r (hr r) (ht r) (fun h => hq h r)
  | scan cf k g ih => exact fun r => ih r (hr r) (ht r) (fun h => hq h r)
  | write b g ih => exact hr.elim
  | readLock _ g ih => exact absurd ht.1.2 (by simp)
  | writeLock g ih => exact hr.elim
  | setIndexed x g ih => exact hr.elim

theorem Waits.bind {p : Prog α} {f : α → Prog β} (hr : p.Reading) (ht : p.Takes true) (hf : ∀ a, Waits X R n o (f a)) :
    Waits X R n o (p >>= f) := by
  show Waits X R n o (p.bind f)
  induction p with
  | done r => cases r with
    | ok a => exact hf a
    | error e => trivial
  | get cf k g ih => exact fun r => ih r (hr r) (ht r)
  | scan cf k g ih => exact fun r => ih r (hr r) (ht r)
  | write b g ih => exact hr.elim
  | readLock held g ih =>
    obtain ⟨⟨rfl, _⟩, ht⟩ := ht
    exact fun r => ih r (hr r) (ht r)
  | writeLock g ih => exact hr.elim
  | setIndexed x g ih => exact hr.elim

theorem Holds.map {p : Prog α} (h : Holds X R n o wr ix p) (hw : wr = false) (f : α → β) :
    Holds X R n o wr ix (p >>= fun a => (pure (f a) : Prog β)) := by
  show Holds X R n o wr ix (p.bind _)
  induction p with
  | done r => cases r <;> trivial
  | get cf k g ih => exact fun r => ih r (h r)
  | scan cf k g ih => exact fun r => ih r (h r)
  | write b g ih => exact ⟨h.1, ih () h.2⟩
  | setIndexed x g ih => rw [hw] at h; cases h.1
  | _ => exact h.elim

/-- For programs without `index_property`. -/
theorem Waits.map {p : Prog α} (h : Waits X R n o p) (ho : p.Once) (f : α → β) :
    Waits X R n o (p >>= fun a => (pure (f a) : Prog β)) := by
  show Waits X R n o (p.bind _)
  induction p with
  | done r => cases r <;> trivial
  | get cf k g ih => exact fun r => ih r (h r) (ho r)
  | scan cf k g ih => exact fun r => ih r (h r) (ho r)
  | write b g ih =>
    obtain ⟨a, e⟩ := ho
    refine ⟨h.1, ?_⟩
    show Waits X R n o ((g ()).bind _)
    rw [e]; trivial
  | readLock held g ih =>
    cases held with
    | false => exact fun r => ih r (h r) (ho r)
    | true => exact fun r => (h r).map rfl f
  | writeLock g ih => exact ho.elim
  | setIndexed x g ih => exact h.elim

theorem wt_locked {f : SSet Identifier → Prog Batch} (hr : ∀ ix, (f ix).Reading) (ht : ∀ ix, (f ix).Takes false)
    (h : ∀ ix, Has n ix → (f ix).AllIf (Has n) (Keeps X R n) (Keeps X R n)) : Waits X R n o (locked f) :=
  fun ix => Holds.bind (hr ix) (ht ix) (h ix) (fun _ hb => ⟨hb, trivial⟩)

/-! #### What the calls do without a lock -/

theorem free_vertices {op : Batch} (h : ∀ w ∈ op, ∃ k v, w = .put .vertices k v) : Free X n o op := by
  have key : ∀ cf k, cf ≠ .vertices → op.at cf k = none := by
    intro cf k hc
    induction op with
    | nil => rfl
    | cons a r ih =>
      rw [Batch.at_cons, ih (fun w hw => h w (List.mem_cons_of_mem _ hw)), Option.none_or]
      obtain ⟨k', v, rfl⟩ := h a List.mem_cons_self
      show (if _ then _ else _) = _
      rw [if_neg (fun e => hc e.1.symm)]
  refine ⟨key _ _ (by cases o <;> simp [pTable]), fun u => key _ _ (by cases o <;> simp [eTable]), ?_⟩
  generalize oTable o = cf
  generalize oKey X o = k
  clear key
  induction op with
  | nil => intro e; cases e
  | cons a r ih =>
    rw [Batch.at_cons]
    have h1 := ih (fun w hw => h w (List.mem_cons_of_mem _ hw))
    cases hr : Batch.at r cf k with
    | some y => rw [hr] at h1; simpa using h1
    | none =>
      rw [Option.none_or]
      obtain ⟨k', v, rfl⟩ := h a List.mem_cons_self
      show (if _ then _ else _) ≠ _
      split <;> simp

theorem free_edgeSet (e : Edge) (b : Batch) (hb : b = [] ∨ b = edgeRangeDelete X .edgeRanges e ++
      edgeRangeDelete X .reversedEdgeRanges e.reversed) :
    Free X n o (b ++ (edgeRangeSet X .edgeRanges e ++ edgeRangeSet X .reversedEdgeRanges e.reversed)) := by
  have key : ∀ cf k, cf ≠ .edgeRanges → cf ≠ .reversedEdgeRanges →
      (b ++ (edgeRangeSet X .edgeRanges e ++ edgeRangeSet X .reversedEdgeRanges e.reversed)).at cf k = none := by
    intro cf k h1 h2
    have h1' := h1.symm
    have h2' := h2.symm
    rcases hb with rfl | rfl <;>
      simp [edgeRangeSet, edgeRangeDelete, Batch.at_cons, WriteOp.at, h1', h2']
  refine ⟨key _ _ (by cases o <;> simp [pTable]) (by cases o <;> simp [pTable]), fun u => key _ _ (by cases o <;> simp [eTable])
    (by cases o <;> simp [eTable]), ?_⟩
  cases o with
  | vertex i => rw [key _ _ (by simp [oTable]) (by simp [oTable])]; simp
  | edge f =>
    rw [Batch.at_append]
    by_cases hk : edgeKey X e = edgeKey X f
    · simp [edgeRangeSet, Batch.at_cons, WriteOp.at, oTable, oKey, hk]
    · rcases hb with rfl | rfl <;>
        simp [edgeRangeSet, edgeRangeDelete, Batch.at_cons, WriteOp.at, oTable, oKey, hk]

theorem wt_createVertex (v : Vertex) : Waits X R n o (createVertex X v) := by
  unfold createVertex
  refine Waits.bind (rd_vertexExists _) (tk_vertexExists _) (fun r => ?_)
  split
  · trivial
  · exact ⟨free_vertices (fun w hw => ⟨_, _, List.mem_singleton.1 hw⟩), trivial⟩

theorem wt_createEdge (e : Edge) : Waits X R n o (createEdge X e) := by
  unfold createEdge
  refine Waits.bind (rd_vertexExists _) (tk_vertexExists _) (fun r => ?_)
  split
  · trivial
  · refine Waits.bind (rd_vertexExists _) (tk_vertexExists _) (fun r => ?_)
    split
    · trivial
    · show Waits X R n o (Prog.bind (Prog.bind (edgeContains X .edgeRanges e) _) _)
      rw [Prog.bind_assoc']
      refine Waits.bind (rd_edgeContains _ _) (tk_edgeContains _ _) (fun r => ⟨?_, trivial⟩)
      rw [List.append_assoc]
      refine free_edgeSet e _ ?_
      cases r
      · exact Or.inl rfl
      · exact Or.inr rfl

/-! #### What `index_property` writes -/

/-- Batches that only put index entries, or the record of the indexed names. -/
def Puts (b : Batch) : Prop := ∀ op ∈ b, ∃ cf k v, op = .put cf k v ∧
  (cf = .vertexPropertyValues ∨ cf = .edgePropertyValues ∨ cf = .metadata)

theorem Puts.nil : Puts [] := fun _ h => nomatch h
theorem Puts.append {a b : Batch} (ha : Puts a) (hb : Puts b) : Puts (a ++ b) := fun op h =>
  (List.mem_append.1 h).elim (ha op) (hb op)

theorem Puts.other {b : Batch} (h : Puts b) {cf : CF} {k : Bytes} (h1 : cf ≠ .vertexPropertyValues) (h2 : cf ≠ .edgePropertyValues)
    (h3 : cf ≠ .metadata) : b.at cf k = none := by
  induction b with
  | nil => rfl
  | cons a r ih =>
    rw [Batch.at_cons, ih (fun w hw => h w (List.mem_cons_of_mem _ hw)), Option.none_or]
    obtain ⟨cf', k', v, rfl, hc⟩ := h a List.mem_cons_self
    show (if _ then _ else _) = _
    rw [if_neg]
    rintro ⟨rfl, _⟩
    rcases hc with rfl | rfl | rfl
    · exact h1 rfl
    · exact h2 rfl
    · exact h3 rfl

theorem Puts.has {b : Batch} (h : Puts b) {cf : CF} {k x : Bytes} (hm : .put cf k x ∈ b) : ∃ y, b.at cf k = some (some y) := by
  induction b with
  | nil => exact (nomatch hm)
  | cons a r ih =>
    rw [Batch.at_cons]
    have hr := fun w hw => h w (List.mem_cons_of_mem a hw)
    by_cases hin : .put cf k x ∈ r
    · obtain ⟨y, hy⟩ := ih hr hin
      exact ⟨y, by rw [hy]; rfl⟩
    · have e : a = .put cf k x := by
        rcases List.mem_cons.1 hm with h | h
        · exact h.symm
        · exact absurd h hin
      subst e
      cases hb : Batch.at r cf k with
      | none => exact ⟨x, by simp [WriteOp.at]⟩
      | some y =>
        cases y with
        | some y => exact ⟨y, rfl⟩
        | none =>
          exfalso
          clear ih hin hm h
          induction r with
          | nil => cases hb
          | cons c r ih =>
            rw [Batch.at_cons] at hb
            obtain ⟨cf', k', v, rfl, _⟩ := hr c List.mem_cons_self
            cases hb' : Batch.at r cf k with
            | none =>
              rw [hb', Option.none_or] at hb
              have hb : (if _ then _ else _) = _ := hb
              split at hb <;> simp at hb
            | some y =>
              rw [hb'] at hb
              simp only [Option.some_or, Option.some.injEq] at hb
              subst hb
              exact ih (fun w hw => hr w (List.mem_cons_of_mem _ hw)) hb'

/-- The batch has an entry of the owner. -/
def HasEntry (X : Cfg) (R : Json → UInt64 → Prop) (n : Identifier) (o : Owner) (w : Json) (b : Batch) : Prop :=
  ∃ h x, R w h ∧ .put (eTable o) (eKey X n h o) x ∈ b

/-- A loop over items one of which makes the entry. -/
theorem Sees.forItems {f : α → Prog Batch} {l : List α} {mine : α → Prop}
    (h : ∀ a, Sees X n o bytes (fun b => Puts b ∧ (mine a → HasEntry X R n o w b)) (f a)) :
    Sees X n o bytes (fun b => Puts b ∧ ((∃ a ∈ l, mine a) → HasEntry X R n o w b)) (Prog.forItems f (l.map .ok)) := by
  induction l with
  | nil => exact ⟨Puts.nil, fun ⟨a, h, _⟩ => (nomatch h)⟩
  | cons a r ih =>
    refine (h a).bind (fun b hb => ih.bind (fun b' hb' => ⟨hb.1.append hb'.1, ?_⟩))
    rintro ⟨x, hx, hm⟩
    rcases List.mem_cons.1 hx with rfl | hx
    · obtain ⟨u, y, h1, h2⟩ := hb.2 hm
      exact ⟨u, y, h1, List.mem_append_left _ h2⟩
    · obtain ⟨u, y, h1, h2⟩ := hb'.2 ⟨x, hx, hm⟩
      exact ⟨u, y, h1, List.mem_append_right _ h2⟩

theorem Good.readable {kv : KV} (h : Good X n o bytes kv) : Readable X kv := h.values.readable

theorem sees_vpGet (hw : X.codec.dec bytes = some w) (i : Uuid) :
    Sees X n o bytes (fun r => o = .vertex i → r = some w) (vpGet X i n) := by
  intro kv hk
  have hrd := hk.readable.vprops
  cases hb : (kv .vertexProperties).get (vpKey X i n) with
  | none =>
    show o = _ → _
    rintro rfl
    have := hk.prop
    rw [show (kv .vertexProperties).get (vpKey X i n) = some bytes from this] at hb
    cases hb
  | some b =>
    obtain ⟨x, hx⟩ := hrd _ _ hb
    show Sees X n o bytes _ (Prog.bind (Prog.lift (fromSlice X b)) _)
    have : fromSlice X b = .ok x := by simp [fromSlice, hx]
    rw [this]
    show o = _ → some x = some w
    rintro rfl
    have := hk.prop
    rw [show (kv .vertexProperties).get (vpKey X i n) = some bytes from this] at hb
    cases hb
    rw [← hx, hw]

theorem sees_epGet (hw : X.codec.dec bytes = some w) (e : Edge) :
    Sees X n o bytes (fun r => o = .edge e → r = some w) (epGet X e n) := by
  intro kv hk
  have hrd := hk.readable.eprops
  cases hb : (kv .edgeProperties).get (epKey X e n) with
  | none =>
    show o = _ → _
    rintro rfl
    have := hk.prop
    rw [show (kv .edgeProperties).get (epKey X e n) = some bytes from this] at hb
    cases hb
  | some b =>
    obtain ⟨x, hx⟩ := hrd _ _ hb
    show Sees X n o bytes _ (Prog.bind (Prog.lift (fromSlice X b)) _)
    have : fromSlice X b = .ok x := by simp [fromSlice, hx]
    rw [this]
    show o = _ → some x = some w
    rintro rfl
    have := hk.prop
    rw [show (kv .edgeProperties).get (epKey X e n) = some bytes from this] at hb
    cases hb
    rw [← hx, hw]

theorem sees_vertexIterate : Sees X n o bytes (fun l => ∃ vs : List Vertex, l = vs.map .ok ∧ (∀ i, o = .vertex i → ∃ v ∈ vs, v.id = i))
    (vertexIterate X Uuid.nil) := by
  refine Sees.ofScan (fun kv hk => ?_)
  have h1 := vertexIterate_run (X := X) Uuid.nil ⟨kv, SMap.empty⟩ hk.wf
  refine ⟨_, h1, _, rfl, ?_⟩
  rintro i rfl
  have ha : (kv .vertices).contains (vertexKey X i) = true := hk.alive
  rw [vertex_isSome ⟨kv, SMap.empty⟩ hk.wf] at ha
  obtain ⟨t, ht⟩ := Option.isSome_iff_exists.1 ha
  exact ⟨⟨i, t⟩, ((vertexList_enum ⟨kv, SMap.empty⟩ hk.wf Uuid.nil).mem _).2 ⟨ht, nil_not_lt _⟩, rfl⟩

theorem sees_edgeIterateAll : Sees X n o bytes (fun l => ∃ es : List Edge, l = es.map .ok ∧ (∀ e, o = .edge e → e ∈ es))
    (edgeIterateAll .edgeRanges) := by
  refine Sees.ofScan (fun kv hk => ?_)
  obtain ⟨l, h1, h2⟩ := edgeIterateAll_run (X := X) .edgeRanges ⟨kv, SMap.empty⟩ hk.wf.edges
  refine ⟨_, h1, l, rfl, ?_⟩
  rintro e rfl
  exact (h2.mem _).2 hk.alive

/-- **The rest of `index_property` after the name has been added to the set enters the owner.** -/
theorem fills_index (hR : ∀ w, R w (X.H w.stream)) (hw : X.codec.dec bytes = some w) (O : IdentOrder) (ix : SSet Identifier) (f : Unit → Reply) :
    Fills X R n o bytes w (Prog.bind (do
      let b := setIndexedBatch O ix
      let b1 ← Prog.forItems (fun v : Vertex => do
        match ← vpGet X v.id n with
        | some x => return vpvSet X v.id n x
        | none => return []) (← vertexIterate X Uuid.nil)
      let b2 ← Prog.forItems (fun e : Edge => do
        match ← epGet X e n with
        | some x => return epvSet X e n x
        | none => return []) (← edgeIterateAll .edgeRanges)
      Prog.writeBatch (b ++ b1 ++ b2)) (fun a => (pure (f a) : Prog Reply))) := by
  show Fills X R n o bytes w (Prog.bind (Prog.bind (vertexIterate X Uuid.nil) _) _)
  rw [Prog.bind_assoc']
  refine Sees.fills sees_vertexIterate (fun l hl => ?_)
  obtain ⟨vs, rfl, hvs⟩ := hl
  show Fills X R n o bytes w (Prog.bind (Prog.bind _ _) _)
  rw [Prog.bind_assoc']
  refine Sees.fills (Sees.forItems (R := R) (w := w) (mine := fun v : Vertex => o = .vertex v.id) (fun v => ?_)) (fun b1 h1 => ?_)
  · refine (sees_vpGet hw v.id).bind (fun r hr => ?_)
    cases r with
    | none => exact ⟨Puts.nil, fun h => (nomatch hr h)⟩
    | some x =>
      refine ⟨?_, fun h => ?_⟩
      · intro op hop
        exact ⟨_, _, _, List.mem_singleton.1 hop, Or.inl rfl⟩
      · cases hr h
        subst h
        exact ⟨_, [], hR _, by rw [vpvSet, vpvKey_eq]; exact List.mem_singleton.2 rfl⟩
  show Fills X R n o bytes w (Prog.bind (Prog.bind _ _) _)
  rw [Prog.bind_assoc']
  refine Sees.fills sees_edgeIterateAll (fun l hl => ?_)
  obtain ⟨es, rfl, hes⟩ := hl
  show Fills X R n o bytes w (Prog.bind (Prog.bind _ _) _)
  rw [Prog.bind_assoc']
  refine Sees.fills (Sees.forItems (R := R) (w := w) (mine := fun e : Edge => o = .edge e) (fun v => ?_)) (fun b2 h2 => ?_)
  · refine (sees_epGet hw v).bind (fun r hr => ?_)
    cases r with
    | none => exact ⟨Puts.nil, fun h => (nomatch hr h)⟩
    | some x =>
      refine ⟨?_, fun h => ?_⟩
      · intro op hop
        exact ⟨_, _, _, List.mem_singleton.1 hop, Or.inr (Or.inl rfl)⟩
      · cases hr h
        subst h
        exact ⟨_, [], hR _, by rw [epvSet, epvKey_eq]; exact List.mem_singleton.2 rfl⟩
  have hp : Puts (setIndexedBatch O ix ++ b1 ++ b2) := by
    refine Puts.append (Puts.append ?_ h1.1) h2.1
    intro op hop
    exact ⟨_, _, _, List.mem_singleton.1 hop, Or.inr (Or.inr rfl)⟩
  refine ⟨hp.other (by cases o <;> simp [pTable]) (by cases o <;> simp [pTable]) (by cases o <;> simp [pTable]), ?_⟩
  have : HasEntry X R n o w (setIndexedBatch O ix ++ b1 ++ b2) := by
    cases o with
    | vertex i =>
      obtain ⟨v, hv, he⟩ := hvs i rfl
      obtain ⟨u, y, h3, h4⟩ := h1.2 ⟨v, hv, by rw [he]⟩
      exact ⟨u, y, h3, List.mem_append_left _ (List.mem_append_right _ h4)⟩
    | edge e =>
      obtain ⟨u, y, h3, h4⟩ := h2.2 ⟨e, hes e rfl, rfl⟩
      exact ⟨u, y, h3, List.mem_append_right _ h4⟩
  obtain ⟨u, x, h3, h4⟩ := this
  obtain ⟨y, hy⟩ := hp.has h4
  exact ⟨u, y, h3, hy⟩

/-! ### Calls -/

variable {V : Json → Prop}

theorem wt_indexProperty (hR : ∀ w, R w (X.H w.stream)) (O : IdentOrder) (m : Identifier) :
    Waits X R n o (callProg X O (.indexProperty m)) := by
  intro ix
  show Holds X R n o true ix (Prog.bind (if _ then _ else _) _)
  by_cases hx : ix.contains m = true
  · rw [if_pos hx]; trivial
  · rw [if_neg hx]
    refine ⟨rfl, fun h => ?_, fun h h' b w hw => ?_, ?_⟩
    · unfold Has at *
      rw [SSet.contains_add, h, Bool.or_true]
    · have : m = n := by
        unfold Has at h h'
        rw [SSet.contains_add, Bool.or_eq_true] at h'
        rcases h' with h' | h'
        · exact (by simpa using h' : n = m).symm
        · exact absurd h' h
      subst this
      exact fills_index hR hw O _ _
    · have hs : Has n (ix.add m) → Keeps X R n (setIndexedBatch O (ix.add m)) := fun h => keeps_setIndexed O h
      show Holds X R n o true _ (Prog.bind (Prog.bind (vertexIterate X Uuid.nil) _) _)
      rw [Prog.bind_assoc']
      refine Holds.bind (Q := fun _ => True) (rd_vertexIterate _) (tk_vertexIterate _) (fun _ _ => trivial) (fun l _ => ?_)
      show Holds X R n o true _ (Prog.bind (Prog.bind _ _) _)
      rw [Prog.bind_assoc']
      refine Holds.bind (Q := Keeps X R n) (Reading.forItems (fun v => (rd_vpGet _ _).bind (fun r => by cases r <;> trivial)))
        (Takes.forItems (fun v => (tk_vpGet _ _).bind (fun r => by cases r <;> trivial)))
        (fun _ => .forItems .nil (fun _ _ => .append) (fun v _ => ?_)) (fun b1 h1 => ?_)
      · refine (rd_vpGet _ _).thenIf (fun r => ?_)
        cases r with
        | none => exact Keeps.nil
        | some x => exact keeps_vpvSet _ _ _
      show Holds X R n o true _ (Prog.bind (Prog.bind _ _) _)
      rw [Prog.bind_assoc']
      refine Holds.bind (Q := fun _ => True) (rd_edgeIterateAll _) (tk_edgeIterateAll _) (fun _ _ => trivial) (fun l _ => ?_)
      show Holds X R n o true _ (Prog.bind (Prog.bind _ _) _)
      rw [Prog.bind_assoc']
      refine Holds.bind (Q := Keeps X R n) (Reading.forItems (fun v => (rd_epGet _ _).bind (fun r => by cases r <;> trivial)))
        (Takes.forItems (fun v => (tk_epGet _ _).bind (fun r => by cases r <;> trivial)))
        (fun _ => .forItems .nil (fun _ _ => .append) (fun v _ => ?_)) (fun b2 h2 => ?_)
      · refine (rd_epGet _ _).thenIf (fun r => ?_)
        cases r with
        | none => exact Keeps.nil
        | some x => exact keeps_epvSet _ _ _
      exact ⟨fun h => ((hs h).append (h1 h)).append (h2 h), trivial⟩

/-- **Every call.** -/
theorem wt_call (hE : Enters X V R) (hR : ∀ w, R w (X.H w.stream)) (O : IdentOrder) (op : Op) (hv : op.ValuesOk V) :
    Waits X R n o (callProg X O op) := by
  cases op with
  | sync => trivial
  | createVertex v => exact (wt_createVertex v).map (once_createVertex v) _
  | createVertexFromType id t =>
    have h : (createVertexFromTypeP X id t) = vertexExists X id >>= fun r => if r then Prog.lift (.error (.err .uuidTaken))
        else Prog.write (vertexCreate X ⟨id, t⟩) (fun _ => .done (.ok id)) := by
      unfold createVertexFromTypeP createVertex
      show Prog.bind (Prog.bind _ _) _ = _
      show Prog.get _ _ _ = Prog.get _ _ _
      congr 1
      funext r
      cases r <;> rfl
    show Waits X R n o (createVertexFromTypeP X id t >>= _)
    rw [h]
    show Waits X R n o (Prog.bind (Prog.bind _ _) _)
    rw [Prog.bind_assoc']
    refine Waits.bind (rd_vertexExists _) (tk_vertexExists _) (fun r => ?_)
    cases r
    · exact ⟨free_vertices (fun w hw => ⟨_, _, List.mem_singleton.1 hw⟩), trivial⟩
    · trivial
  | createEdge e => exact (wt_createEdge e).map (once_createEdge e) _
  | get q => exact Waits.bind (rd_query q []) (tk_query q []) (fun _ => trivial)
  | delete q =>
    show Waits X R n o (Prog.bind (Prog.bind (lastOutputP X q) _) _)
    rw [Prog.bind_assoc']
    refine Waits.bind (rd_lastOutput q) (tk_lastOutput q) (fun v => ?_)
    cases v with
    | vertices vs =>
      refine Waits.map (wt_locked (fun _ => .forAll (fun _ => rd_vertexDelete _ _)) (fun _ => .forAll (fun _ => tk_vertexDelete _ _))
        (fun _ _ => .forAll .nil (fun _ _ => .append) (fun _ _ => if_vertexDelete _ _))) (once_deleteVertices vs) _
    | edges es =>
      refine Waits.map (wt_locked (fun _ => .forAll (fun e => (rd_vertexGet _).bind (fun r => ?_)))
        (fun _ => .forAll (fun e => (tk_vertexGet _).bind (fun r => ?_)))
        (fun _ _ => .forAll .nil (fun _ _ => .append) (fun e _ => (rd_vertexGet _).thenIf (fun r => ?_)))) (once_deleteEdges es) _
      · cases r with
        | none => trivial
        | some t => exact rd_edgeDelete _ _
      · cases r with
        | none => trivial
        | some t => exact tk_edgeDelete _ _
      · cases r with
        | none => exact Keeps.nil
        | some t => exact if_edgeDelete _ _
    | vertexProperties l =>
      refine Waits.map (wt_locked (fun _ => .forAll (fun _ => rd_vpDelete _ _ _)) (fun _ => .forAll (fun _ => tk_vpDelete _ _ _))
        (fun _ _ => .forAll .nil (fun _ _ => .append) (fun _ _ => if_vpDelete _ _ _))) (once_deleteVertexProperties _) _
    | edgeProperties l =>
      refine Waits.map (wt_locked (fun _ => .forAll (fun _ => rd_epDelete _ _ _)) (fun _ => .forAll (fun _ => tk_epDelete _ _ _))
        (fun _ _ => .forAll .nil (fun _ _ => .append) (fun _ _ => if_epDelete _ _ _))) (once_deleteEdgeProperties _) _
    | count n => trivial
  | setProperties q m x =>
    show Waits X R n o (Prog.bind (Prog.bind (lastOutputP X q) _) _)
    rw [Prog.bind_assoc']
    refine Waits.bind (rd_lastOutput q) (tk_lastOutput q) (fun v => ?_)
    cases v with
    | vertices vs =>
      refine Waits.map (wt_locked (fun _ => .forAll (fun _ => rd_vpSet _ _ _ _)) (fun _ => .forAll (fun _ => tk_vpSet _ _ _ _))
        (fun _ hi => .forAll .nil (fun _ _ => .append) (fun _ _ => if_vpSet hE hi _ _ _ hv))) (once_setVertexProperties _ _ _) _
    | edges es =>
      refine Waits.map (wt_locked (fun _ => .forAll (fun _ => rd_epSet _ _ _ _)) (fun _ => .forAll (fun _ => tk_epSet _ _ _ _))
        (fun _ hi => .forAll .nil (fun _ _ => .append) (fun _ _ => if_epSet hE hi _ _ _ hv))) (once_setEdgeProperties _ _ _) _
    | _ => trivial
  | bulkInsert items =>
    refine Waits.map (wt_locked (fun _ => .forAll (fun _ => rd_bulkItem _ _)) (fun _ => .forAll (fun _ => tk_bulkItem _ _))
      (fun ix hi => .forAll .nil (fun _ _ => .append) (fun i hm => ?_))) (once_bulkInsert items) _
    have hvi := hv i hm
    cases i with
    | vertex v => exact keeps_vertex (Or.inl ⟨_, _, rfl⟩)
    | edge e => exact if_edgeSet e
    | vertexProperty id m v => exact if_vpSet hE hi _ _ _ hvi
    | edgeProperty e m v => exact if_epSet hE hi _ _ _ hvi
  | indexProperty m => exact wt_indexProperty hR O m

/-! ### Executions -/

/-- What is known of every call. -/
structure PhaseInv (X : Cfg) (R : Json → UInt64 → Prop) (n : Identifier) (o : Owner) (h : List Ev) (S : Conc) : Prop where
  excl : ∀ c, S.writer = some c → S.readers = []
  writer : ∀ c p, S.calls c = .running p → S.writer = some c → Holds X R n o true S.db.indexed p
  reader : ∀ c p, S.calls c = .running p → S.writer ≠ some c → c ∈ S.readers → Holds X R n o false S.db.indexed p
  waits : ∀ c p, S.calls c = .running p → S.writer ≠ some c → c ∉ S.readers → Waits X R n o p
  lacks : ∀ c p, S.calls c = .running p → ∀ op, Ev.call c op ∈ h → ¬ op.Creates o →
    p.All (Lacks (oTable o) (oKey X o)) (fun _ => True)

/-- A step of `c` in which neither locks nor the set of names change. -/
theorem PhaseInv.silent {h : List Ev} {S S' : Conc} (H : PhaseInv X R n o h S) {c : Nat} {p p' : Prog Reply}
    (hc : S.calls c = .running p) (h1 : S'.calls = setAt S.calls c (.running p')) (h2 : S'.writer = S.writer)
    (h3 : S'.readers = S.readers) (h4 : S'.db.indexed = S.db.indexed)
    (hh : ∀ wr, Holds X R n o wr S.db.indexed p → Holds X R n o wr S.db.indexed p')
    (hw : c ∉ S.readers → S.writer ≠ some c → Waits X R n o p → Waits X R n o p')
    (hl : p.All (Lacks (oTable o) (oKey X o)) (fun _ => True) → p'.All (Lacks (oTable o) (oKey X o)) (fun _ => True)) :
    PhaseInv X R n o (h ++ []) S' := by
  rw [List.append_nil]
  refine ⟨by rw [h2, h3]; exact H.excl, ?_, ?_, ?_, ?_⟩
  · intro i q hi hi'
    rw [h1] at hi; rw [h2] at hi'; rw [h4]
    rcases setAt_eq hi with ⟨e, hq⟩ | ⟨_, hq⟩
    · cases hq; subst e; exact hh _ (H.writer _ _ hc hi')
    · exact H.writer i q hq hi'
  · intro i q hi hi' hr
    rw [h1] at hi; rw [h2] at hi'; rw [h3] at hr; rw [h4]
    rcases setAt_eq hi with ⟨e, hq⟩ | ⟨_, hq⟩
    · cases hq; subst e; exact hh _ (H.reader _ _ hc hi' hr)
    · exact H.reader i q hq hi' hr
  · intro i q hi hi' hr
    rw [h1] at hi; rw [h2] at hi'; rw [h3] at hr
    rcases setAt_eq hi with ⟨e, hq⟩ | ⟨_, hq⟩
    · cases hq; subst e; exact hw hr hi' (H.waits _ _ hc hi' hr)
    · exact H.waits i q hq hi' hr
  · intro i q hi op hop hnc
    rw [h1] at hi
    rcases setAt_eq hi with ⟨e, hq⟩ | ⟨_, hq⟩
    · cases hq; subst e; exact hl (H.lacks _ _ hc op hop hnc)
    · exact H.lacks i q hq op hop hnc

theorem PhaseInv.step (hE : Enters X V R) (hR : ∀ w, R w (X.H w.stream)) {s : Rocks} {h e : List Ev} {S S' : Conc}
    (H : PhaseInv X R n o h S) (N : NamesInv s h S) (L : LockInv S) (ho : OkCalls V e) (hs : Conc.Step X S e S') :
    PhaseInv X R n o (h ++ e) S' := by
  cases hs with
  | call c O op hc =>
    have hw : S.writer ≠ some c := by
      intro hw
      obtain ⟨q, hq, _⟩ := L.writer c hw
      rw [hc] at hq; cases hq
    have hr : c ∉ S.readers := by
      intro hr
      obtain ⟨q, hq, _⟩ := L.readers c hr
      rw [hc] at hq; cases hq
    refine ⟨H.excl, ?_, ?_, ?_, ?_⟩
    · intro i q hi hi'
      rcases setAt_eq hi with ⟨e, _⟩ | ⟨_, hq⟩
      · subst e; exact absurd hi' hw
      · exact H.writer i q hq hi'
    · intro i q hi hi' hr'
      rcases setAt_eq hi with ⟨e, _⟩ | ⟨_, hq⟩
      · subst e; exact absurd hr' hr
      · exact H.reader i q hq hi' hr'
    · intro i q hi hi' hr'
      rcases setAt_eq hi with ⟨e, hq⟩ | ⟨_, hq⟩
      · cases hq; exact wt_call hE hR O op (ho c op (by simp))
      · exact H.waits i q hq hi' hr'
    · intro i q hi op' hop hnc
      rcases setAt_eq hi with ⟨e, hq⟩ | ⟨hne, hq⟩
      · cases hq; subst e
        rcases List.mem_append.1 hop with hop | hop
        · exact (N.unused i hc _ hop rfl).elim
        · simp at hop
          subst hop
          exact lk_call O op' o hnc
      · rcases List.mem_append.1 hop with hop | hop
        · exact H.lacks i q hq op' hop hnc
        · simp at hop; exact absurd hop.1 hne
  | get c cf k f hc => exact H.silent hc rfl rfl rfl rfl (fun _ h => h _) (fun _ _ h => h _) (fun h => h _)
  | scan c cf k f hc => exact H.silent hc rfl rfl rfl rfl (fun _ h => h _) (fun _ _ h => h _) (fun h => h _)
  | write c b f hc => exact H.silent (p' := f ()) hc rfl rfl rfl rfl (fun _ h => h.2) (fun _ _ h => h.2) (fun h => h.2)
  | readLock c held f hc hw =>
    cases held with
    | false => exact H.silent hc rfl rfl rfl rfl (fun _ h => h.elim) (fun _ _ h => h _) (fun h => h _)
    | true =>
      rw [List.append_nil]
      have nw : ∀ i, S.writer ≠ some i := fun i => by rw [hw]; simp
      have hcr : c ∉ S.readers := fun hr => (H.reader c _ hc (nw c) hr).elim
      refine ⟨fun i hi => absurd hi (nw i), fun i q _ hi => absurd hi (nw i), ?_, ?_, ?_⟩
      · intro i q hi hi' hr
        rcases setAt_eq hi with ⟨e, hq⟩ | ⟨hne, hq⟩
        · cases hq; exact H.waits c _ hc (nw c) hcr _
        · rcases List.mem_cons.1 hr with h | h
          · exact absurd h hne
          · exact H.reader i q hq (nw i) h
      · intro i q hi hi' hr
        rcases setAt_eq hi with ⟨e, hq⟩ | ⟨hne, hq⟩
        · subst e; exact absurd List.mem_cons_self hr
        · exact H.waits i q hq (nw i) (fun h => hr (List.mem_cons_of_mem _ h))
      · intro i q hi op hop hnc
        rcases setAt_eq hi with ⟨e, hq⟩ | ⟨hne, hq⟩
        · cases hq; subst e; exact H.lacks _ _ hc op hop hnc _
        · exact H.lacks i q hq op hop hnc
  | writeLock c f hc hw hr =>
    rw [List.append_nil]
    have nw : ∀ i, S.writer ≠ some i := fun i => by rw [hw]; simp
    have nr : ∀ i, i ∉ S.readers := fun i => by rw [hr]; simp
    refine ⟨fun i _ => hr, ?_, fun i q _ _ h => absurd h (nr i), ?_, ?_⟩
    · intro i q hi hi'
      rcases setAt_eq hi with ⟨e, hq⟩ | ⟨hne, hq⟩
      · cases hq; exact H.waits c _ hc (nw c) (nr c) _
      · cases hi'; exact absurd rfl hne
    · intro i q hi hi' _
      rcases setAt_eq hi with ⟨e, hq⟩ | ⟨hne, hq⟩
      · subst e; exact absurd rfl hi'
      · exact H.waits i q hq (nw i) (nr i)
    · intro i q hi op hop hnc
      rcases setAt_eq hi with ⟨e, hq⟩ | ⟨hne, hq⟩
      · cases hq; subst e; exact H.lacks _ _ hc op hop hnc _
      · exact H.lacks i q hq op hop hnc
  | setIndexed c ix f hc =>
    rw [List.append_nil]
    have hw : S.writer = some c := by
      by_cases hw : S.writer = some c
      · exact hw
      · by_cases hr : c ∈ S.readers
        · have h := H.reader c _ hc hw hr; cases h.1
        · exact (H.waits c _ hc hw hr).elim
    have hh := H.writer c _ hc hw
    have nr := H.excl c hw
    refine ⟨H.excl, ?_, fun i q _ _ h => ?_, ?_, ?_⟩
    · intro i q hi hi'
      rcases setAt_eq hi with ⟨e, hq⟩ | ⟨hne, hq⟩
      · cases hq; exact hh.2.2.2
      · have hi' : S.writer = some i := hi'
        rw [hw] at hi'; cases hi'; exact absurd rfl hne
    · have h : i ∈ S.readers := h
      rw [nr] at h; cases h
    · intro i q hi hi' hr
      rcases setAt_eq hi with ⟨e, hq⟩ | ⟨hne, hq⟩
      · subst e; exact absurd hw hi'
      · exact H.waits i q hq hi' hr
    · intro i q hi op hop hnc
      rcases setAt_eq hi with ⟨e, hq⟩ | ⟨hne, hq⟩
      · cases hq; subst e; have := H.lacks _ _ hc op hop hnc; exact this
      · exact H.lacks i q hq op hop hnc
  | unlock c r hc hw =>
    rw [List.append_nil]
    have nr := H.excl c hw
    refine ⟨(fun i h => by cases h), (fun i q _ h => by cases h), fun i q _ _ h => ?_, ?_, H.lacks⟩
    · have h : i ∈ S.readers := h
      rw [nr] at h; cases h
    · intro i q hi _ hr
      by_cases hic : i = c
      · subst hic
        have hi : S.calls i = .running q := hi
        rw [hc] at hi; cases hi; trivial
      · exact H.waits i q hi (by rw [hw]; intro e; cases e; exact hic rfl) hr
  | unlockRead c r hc hr =>
    rw [List.append_nil]
    refine ⟨fun i hi => ?_, H.writer, ?_, ?_, H.lacks⟩
    · show S.readers.filter _ = []
      rw [H.excl i hi]; rfl
    · intro i q hi hi' hr'
      exact H.reader i q hi hi' (List.mem_filter.1 hr').1
    · intro i q hi hi' hr'
      by_cases hic : i = c
      · subst hic
        have hi : S.calls i = .running q := hi
        rw [hc] at hi; cases hi; trivial
      · exact H.waits i q hi hi' (fun h => hr' (List.mem_filter.2 ⟨h, by simpa using hic⟩))
  | ret c r hc hw hr =>
    have old : ∀ i q, setAt S.calls c .finished i = .running q → S.calls i = .running q := by
      intro i q hi
      rcases setAt_eq hi with ⟨_, hq⟩ | ⟨_, hq⟩
      · cases hq
      · exact hq
    refine ⟨H.excl, fun i q hi => H.writer i q (old i q hi), fun i q hi => H.reader i q (old i q hi),
      fun i q hi => H.waits i q (old i q hi), fun i q hi op hop => H.lacks i q (old i q hi) op ?_⟩
    rcases List.mem_append.1 hop with h | h
    · exact h
    · simp at h

theorem PhaseInv.exec (hE : Enters X V R) (hR : ∀ w, R w (X.H w.stream)) {s : Rocks} {h : List Ev} {S : Conc}
    (hx : Conc.Exec X s h S) (ho : OkCalls V h) : PhaseInv X R n o h S := by
  induction hx with
  | nil => exact ⟨(fun c h => by cases h), (fun c p h => by cases h), (fun c p h => by cases h), (fun c p h => by cases h), (fun c p h => by cases h)⟩
  | snoc hx hs ih =>
    exact (ih (fun c op hm => ho c op (List.mem_append_left _ hm))).step hE hR (NamesInv.exec (Exec.toFaulty' hx))
      (LockInv.exec (Exec.toFaulty' hx)) (fun c op hm => ho c op (List.mem_append_right _ hm)) hs

/-! ### From the moment on at which the owner is no longer created -/

/-- The owner exists. -/
def Alive (X : Cfg) (o : Owner) (kv : KV) : Prop := (kv (oTable o)).contains (oKey X o) = true

theorem Keeps.entered {b : Batch} {kv : KV} (hb : Keeps X R n b) (h : Entered X R n o kv) : Entered X R n o (kv.write b) := by
  have k : KeepsAt X R (b.at (pTable o) (pKey X n o)) (fun u => b.at (eTable o) (eKey X n u o)) := by
    cases o with
    | vertex i => exact hb.v i
    | edge e => exact hb.e e
  intro y w hy hw
  rw [KV.write_get] at hy
  cases hp : b.at (pTable o) (pKey X n o) with
  | none =>
    rw [hp] at hy
    obtain ⟨u, hr, hu⟩ := h y w (by simpa using hy) hw
    refine ⟨u, hr, ?_⟩
    rw [contains_write]
    have := k.1 hp u
    rw [SMap.contains] at hu
    cases hf : b.at (eTable o) (eKey X n u o) with
    | none => simpa using hu
    | some z => cases z with
      | none => exact absurd hf this
      | some z => rfl
  | some z =>
    rw [hp] at hy
    cases z with
    | none => cases hy
    | some z =>
      simp only [Option.getD_some, Option.some.injEq] at hy
      subst hy
      obtain ⟨u, x, hr, hu⟩ := k.2 _ hp w hw
      exact ⟨u, hr, by rw [contains_write]; simp only [] at hu; rw [hu]; rfl⟩

theorem Free.entered {b : Batch} {kv : KV} (hb : Free X n o b) (h : Entered X R n o kv) : Entered X R n o (kv.write b) := by
  intro y w hy hw
  rw [KV.write_get, hb.prop] at hy
  obtain ⟨u, hr, hu⟩ := h y w hy hw
  exact ⟨u, hr, by rw [contains_write, hb.entries]; exact hu⟩

theorem Free.alive' {b : Batch} {kv : KV} (hb : Free X n o b) (h : Alive X o kv) : Alive X o (kv.write b) := by
  unfold Alive at *
  rw [contains_write]
  cases he : b.at (oTable o) (oKey X o) with
  | none => exact h
  | some z => cases z with
    | none => exact absurd he hb.alive
    | some z => rfl

/-- The name counts as indexed, and the owner, if it exists, is entered. -/
def Sound' (X : Cfg) (R : Json → UInt64 → Prop) (n : Identifier) (o : Owner) (s : Rocks) : Prop :=
  Has n s.indexed ∧ (Alive X o s.kv → Entered X R n o s.kv)

/-- A call is entering the owner. -/
def Filling (X : Cfg) (R : Json → UInt64 → Prop) (n : Identifier) (o : Owner) (S : Conc) : Prop :=
  ∃ c p b w, S.writer = some c ∧ S.calls c = .running p ∧ X.codec.dec b = some w ∧ Good X n o b S.db.kv ∧ Fills X R n o b w p

structure FillInv (X : Cfg) (R : Json → UInt64 → Prop) (n : Identifier) (o : Owner) (h : List Ev) (S : Conc) : Prop where
  lacks : ∀ c p, S.calls c = .running p → p.All (Lacks (oTable o) (oKey X o)) (fun _ => True)
  main : Has n S.db.indexed → Sound' X R n o S.db ∨ Filling X R n o S
  fin : ∀ c p, Ev.call c (.indexProperty n) ∈ h → S.calls c = .running p → S.writer ≠ some c →
    (∃ f, p = .writeLock f) ∨ ∃ r, p = .done r ∧ ∀ a, r = .ok a → Sound' X R n o S.db
  rets : ∀ c a, Ev.call c (.indexProperty n) ∈ h → Ev.ret c (.ok a) ∈ h → Sound' X R n o S.db

/-- A step of `c` that leaves locks and database alone. -/
theorem FillInv.silent {h : List Ev} {S S' : Conc} (H : FillInv X R n o h S) {c : Nat} {p p' : Prog Reply}
    (hc : S.calls c = .running p) (h1 : S'.calls = setAt S.calls c (.running p')) (h2 : S'.writer = S.writer)
    (h4 : S'.db = S.db) (hp : (∀ f, p ≠ .writeLock f) ∧ ∀ r, p ≠ .done r)
    (hf : ∀ b w, Good X n o b S.db.kv → Fills X R n o b w p → Fills X R n o b w p')
    (hl : p.All (Lacks (oTable o) (oKey X o)) (fun _ => True) → p'.All (Lacks (oTable o) (oKey X o)) (fun _ => True)) :
    FillInv X R n o (h ++ []) S' := by
  rw [List.append_nil]
  refine ⟨?_, ?_, ?_, by rw [h4]; exact H.rets⟩
  · intro i q hi
    rw [h1] at hi
    rcases setAt_eq hi with ⟨e, hq⟩ | ⟨_, hq⟩
    · cases hq; exact hl (H.lacks _ _ hc)
    · exact H.lacks i q hq
  · intro hn
    rw [h4] at hn ⊢
    rcases H.main hn with hm | ⟨d, q, b, w, hw, hq, hd, hg, hfl⟩
    · exact Or.inl hm
    · refine Or.inr ?_
      by_cases hdc : d = c
      · subst hdc
        rw [hc] at hq; cases hq
        exact ⟨d, p', b, w, h2.trans hw, by rw [h1]; exact setAt_self _ _ _, hd, by rw [h4]; exact hg, hf b w hg hfl⟩
      · exact ⟨d, q, b, w, h2.trans hw, by rw [h1, setAt_ne _ _ hdc]; exact hq, hd, by rw [h4]; exact hg, hfl⟩
  · intro i q hcall hi hw
    rw [h1] at hi; rw [h2] at hw; rw [h4]
    rcases setAt_eq hi with ⟨e, hq⟩ | ⟨_, hq⟩
    · subst e
      rcases H.fin _ _ hcall hc hw with ⟨f, rfl⟩ | ⟨r, rfl, _⟩
      · exact absurd rfl (hp.1 f)
      · exact absurd rfl (hp.2 r)
    · exact H.fin i q hcall hq hw

theorem FillInv.step {s : Rocks} {h e : List Ev} {S S' : Conc} (H : FillInv X R n o h S) (I : PhaseInv X R n o h S)
    (N : NamesInv s h S) (L : LockInv S) (W : WfInv X (CanRead X) S) (W' : WfInv X (CanRead X) S')
    (hcr : ∀ c op, Ev.call c op ∈ e → ¬ op.Creates o) (hs : Conc.Step X S e S') : FillInv X R n o (h ++ e) S' := by
  cases hs with
  | call c O op hc =>
    have hw : ∀ d, S.writer = some d → d ≠ c := by
      rintro d hw rfl
      obtain ⟨q, hq, _⟩ := L.writer d hw
      rw [hc] at hq; cases hq
    refine ⟨?_, ?_, ?_, ?_⟩
    · intro i q hi
      rcases setAt_eq hi with ⟨e, hq⟩ | ⟨_, hq⟩
      · cases hq; exact lk_call O op o (hcr c op (by simp))
      · exact H.lacks i q hq
    · intro hn
      rcases H.main hn with hm | ⟨d, q, b, w, hwd, hq, hd, hg, hfl⟩
      · exact Or.inl hm
      · exact Or.inr ⟨d, q, b, w, hwd, by show setAt _ _ _ _ = _; rw [setAt_ne _ _ (hw d hwd)]; exact hq, hd, hg, hfl⟩
    · intro i q hcall hi hwi
      rcases setAt_eq hi with ⟨e, hq⟩ | ⟨hne, hq⟩
      · cases hq; subst e
        rcases List.mem_append.1 hcall with hm | hm
        · exact (N.unused i hc _ hm rfl).elim
        · simp at hm; subst hm; exact Or.inl ⟨_, rfl⟩
      · rcases List.mem_append.1 hcall with hm | hm
        · exact H.fin i q hm hq hwi
        · simp at hm; exact absurd hm.1 hne
    · intro i a h1 h2
      have h2' : Ev.ret i (.ok a) ∈ h := by
        rcases List.mem_append.1 h2 with h2 | h2
        · exact h2
        · simp at h2
      rcases List.mem_append.1 h1 with h1 | h1
      · exact H.rets i a h1 h2'
      · simp at h1
        obtain ⟨rfl, _⟩ := h1
        exact (N.unused i hc _ h2' rfl).elim
  | get c cf k f hc => exact H.silent hc rfl rfl rfl ⟨by simp, by simp⟩ (fun b w hg hf => hf _ hg) (fun h => h _)
  | scan c cf k f hc => exact H.silent hc rfl rfl rfl ⟨by simp, by simp⟩ (fun b w hg hf => hf _ hg) (fun h => h _)
  | readLock c held f hc hw => exact H.silent hc rfl rfl rfl ⟨by simp, by simp⟩ (fun b w hg hf => hf.elim) (fun h => h _)
  | write c b f hc =>
    rw [List.append_nil]
    have hlk : Lacks (oTable o) (oKey X o) b := (H.lacks c _ hc).1
    have back : Alive X o (S.db.kv.write b) → Alive X o S.db.kv := by
      intro ha
      unfold Alive at *
      cases hb : (S.db.kv (oTable o)).contains (oKey X o) with
      | true => rfl
      | false => rw [hlk.missing hb] at ha; cases ha
    have sound : Sound' X R n o S.db → Sound' X R n o { S.db with kv := S.db.kv.write b } := by
      rintro ⟨hn, hs⟩
      refine ⟨hn, fun ha => ?_⟩
      have ent := hs (back ha)
      by_cases hw : S.writer = some c
      · exact ((I.writer c _ hc hw).1 hn).entered ent
      · by_cases hr : c ∈ S.readers
        · exact ((I.reader c _ hc hw hr).1 hn).entered ent
        · exact (I.waits c _ hc hw hr).1.entered ent
    refine ⟨?_, ?_, ?_, fun i a h1 h2 => sound (H.rets i a h1 h2)⟩
    · intro i q hi
      rcases setAt_eq hi with ⟨e, hq⟩ | ⟨_, hq⟩
      · cases hq; exact (H.lacks _ _ hc).2
      · exact H.lacks i q hq
    · intro hn
      rcases H.main hn with hm | ⟨d, q, b', w, hwd, hq, hd, hg, hfl⟩
      · exact Or.inl (sound hm)
      · by_cases hdc : d = c
        · subst hdc
          rw [hc] at hq; cases hq
          obtain ⟨h1, u, x, hr, hu⟩ := hfl
          refine Or.inl ⟨hn, fun _ => ?_⟩
          intro y w' hy hw'
          have hy : ((S.db.kv.write b) (pTable o)).get (pKey X n o) = some y := hy
          rw [KV.write_get, h1] at hy
          have hy : (S.db.kv (pTable o)).get (pKey X n o) = some y := hy
          rw [hg.prop] at hy
          cases hy
          rw [hd] at hw'
          cases hw'
          exact ⟨u, hr, by show ((S.db.kv.write b) _).contains _ = true; rw [contains_write, hu]; rfl⟩
        · have hwc : S.writer ≠ some c := by rw [hwd]; intro e; cases e; exact hdc rfl
          have hr : c ∉ S.readers := by rw [I.excl d hwd]; simp
          have hfree := (I.waits c _ hc hwc hr).1
          refine Or.inr ⟨d, q, b', w, hwd, by show setAt _ _ _ _ = _; rw [setAt_ne _ _ hdc]; exact hq, hd, ⟨W'.wf, W'.values,
            hfree.alive' hg.alive, ?_⟩, hfl⟩
          show ((S.db.kv.write b) _).get _ = _
          rw [KV.write_get, hfree.prop]; exact hg.prop
    · intro i q hcall hi hwi
      rcases setAt_eq hi with ⟨e, hq⟩ | ⟨_, hq⟩
      · subst e
        rcases H.fin _ _ hcall hc hwi with ⟨f, hf⟩ | ⟨r, hf, _⟩ <;> cases hf
      · rcases H.fin i q hcall hq hwi with hf | ⟨r, hf, hs⟩
        · exact Or.inl hf
        · exact Or.inr ⟨r, hf, fun a ha => sound (hs a ha)⟩
  | writeLock c f hc hw hr =>
    rw [List.append_nil]
    refine ⟨?_, ?_, ?_, H.rets⟩
    · intro i q hi
      rcases setAt_eq hi with ⟨e, hq⟩ | ⟨_, hq⟩
      · cases hq; exact H.lacks _ _ hc _
      · exact H.lacks i q hq
    · intro hn
      rcases H.main hn with hm | ⟨d, q, b', w, hwd, _⟩
      · exact Or.inl hm
      · rw [hw] at hwd; cases hwd
    · intro i q hcall hi hwi
      rcases setAt_eq hi with ⟨e, hq⟩ | ⟨_, hq⟩
      · subst e; exact absurd rfl hwi
      · exact H.fin i q hcall hq (by rw [hw]; simp)
  | setIndexed c ix f hc =>
    rw [List.append_nil]
    have hw : S.writer = some c := by
      by_cases hw : S.writer = some c
      · exact hw
      · by_cases hr : c ∈ S.readers
        · have h := I.reader c _ hc hw hr; cases h.1
        · exact (I.waits c _ hc hw hr).elim
    obtain ⟨_, hkeep, hfill, _⟩ := I.writer c _ hc hw
    have sound : Sound' X R n o S.db → Sound' X R n o { S.db with indexed := ix } := fun ⟨h1, h2⟩ => ⟨hkeep h1, h2⟩
    refine ⟨?_, ?_, ?_, fun i a h1 h2 => sound (H.rets i a h1 h2)⟩
    · intro i q hi
      rcases setAt_eq hi with ⟨e, hq⟩ | ⟨_, hq⟩
      · cases hq; have := H.lacks _ _ hc; exact this
      · exact H.lacks i q hq
    · intro hn
      by_cases hold : Has n S.db.indexed
      · rcases H.main hold with hm | ⟨d, q, b', w, hwd, hq, _, _, hfl⟩
        · exact Or.inl (sound hm)
        · rw [hw] at hwd; cases hwd
          rw [hc] at hq; cases hq
          exact hfl.elim
      · by_cases hex : Alive X o S.db.kv ∧ ∃ b w, (S.db.kv (pTable o)).get (pKey X n o) = some b ∧ X.codec.dec b = some w
        · obtain ⟨ha, b, w, hb, hd⟩ := hex
          exact Or.inr ⟨c, f (), b, w, hw, setAt_self _ _ _, hd, ⟨W.wf, W.values, ha, hb⟩, hfill hold hn b w hd⟩
        · refine Or.inl ⟨hn, fun ha b w hb hd => ?_⟩
          exact absurd ⟨ha, b, w, hb, hd⟩ hex
    · intro i q hcall hi hwi
      rcases setAt_eq hi with ⟨e, hq⟩ | ⟨_, hq⟩
      · subst e; exact absurd hw hwi
      · rcases H.fin i q hcall hq hwi with hf | ⟨r, hf, hs⟩
        · exact Or.inl hf
        · exact Or.inr ⟨r, hf, fun a ha => sound (hs a ha)⟩
  | unlock c r hc hw =>
    rw [List.append_nil]
    have sound : Has n S.db.indexed → Sound' X R n o S.db := by
      intro hn
      rcases H.main hn with hm | ⟨d, q, b', w, hwd, hq, _, _, hfl⟩
      · exact hm
      · rw [hw] at hwd; cases hwd
        rw [hc] at hq; cases hq
        exact hfl.elim
    refine ⟨H.lacks, fun hn => Or.inl (sound hn), ?_, H.rets⟩
    intro i q hcall hi _
    by_cases hic : i = c
    · subst hic
      have hi : S.calls i = .running q := hi
      rw [hc] at hi; cases hi
      refine Or.inr ⟨r, rfl, fun a ha => sound ?_⟩
      obtain ⟨op, _, hu, hnm⟩ := N.calls _ _ hc
      exact hnm n a (hu _ hcall).symm ha
    · exact H.fin i q hcall hi (by rw [hw]; intro e; cases e; exact hic rfl)
  | unlockRead c r hc hr =>
    rw [List.append_nil]
    exact ⟨H.lacks, H.main, H.fin, H.rets⟩
  | ret c r hc hw hr =>
    have old : ∀ i q, setAt S.calls c .finished i = .running q → S.calls i = .running q := by
      intro i q hi
      rcases setAt_eq hi with ⟨_, hq⟩ | ⟨_, hq⟩
      · cases hq
      · exact hq
    have oldc : ∀ i op, Ev.call i op ∈ h ++ [Ev.ret c r] → Ev.call i op ∈ h := by
      intro i op hm
      rcases List.mem_append.1 hm with hm | hm
      · exact hm
      · simp at hm
    refine ⟨fun i q hi => H.lacks i q (old i q hi), ?_, fun i q hcall hi => H.fin i q (oldc _ _ hcall) (old i q hi), ?_⟩
    · intro hn
      rcases H.main hn with hm | ⟨d, q, b', w, hwd, hq, hd, hg, hfl⟩
      · exact Or.inl hm
      · have hdc : d ≠ c := by rintro rfl; exact hw hwd
        exact Or.inr ⟨d, q, b', w, hwd, by show setAt _ _ _ _ = _; rw [setAt_ne _ _ hdc]; exact hq, hd, hg, hfl⟩
    · intro i a h1 h2
      rcases List.mem_append.1 h2 with h2 | h2
      · exact H.rets i a (oldc _ _ h1) h2
      · simp at h2
        obtain ⟨e, rfl⟩ := h2
        subst e
        rcases H.fin _ _ (oldc _ _ h1) hc hw with ⟨f, hf⟩ | ⟨r', hf, hs⟩
        · cases hf
        · cases hf; exact hs a rfl

/-- **Once `index_property` has returned success, an owner that no call has created since before it was called is entered.** -/
theorem FillInv.exec (hE : Enters X V R) (hR : ∀ w, R w (X.H w.stream)) (hc : ∀ x, V x → CanRead X x) {s : Rocks} (hw : Wf X s.kv)
    (hv : Values X (CanRead X) s.kv) {h1 h2 : List Ev} {S : Conc} (hx : Conc.Exec X s (h1 ++ h2) S) (ho : OkCalls V (h1 ++ h2))
    (hn : ¬ Has n s.indexed) (hni : ∀ c, Ev.call c (.indexProperty n) ∉ h1)
    (hcr : ∀ c op, Ev.call c op ∈ h1 → op.Creates o → ∃ r, Ev.ret c r ∈ h1)
    (hcr2 : ∀ c op, Ev.call c op ∈ h2 → ¬ op.Creates o) :
    FillInv X R n o (h1 ++ h2) S := by
  have fine : ∀ S e S', Conc.Step X S e S' → FaultyStep X S e S' := fun _ _ _ h => .fine h
  obtain ⟨A, x1, x2⟩ := (Steps.ofExec hx).split (X := X) fine rfl
  have F1 := x1.faulty (X := X) fine
  have N1 := NamesInv.exec F1
  have toExec : ∀ {h : List Ev} {T : Conc}, Steps (Conc.Step X) (.init s) h T → Conc.Exec X s h T := by
    intro h T hx
    generalize hA : Conc.init s = A at hx
    induction hx with
    | nil => subst hA; exact .nil
    | snoc _ hs ih => exact ih.snoc hs
  have start : FillInv X R n o (h1 ++ []) A := by
    rw [List.append_nil]
    have P1 := PhaseInv.exec (n := n) (o := o) hE hR (toExec x1) (fun c op hm => ho c op (List.mem_append_left _ hm))
    refine ⟨fun c p hp => ?_, fun h => ?_, fun c p hm => absurd hm (hni c), fun c a hm => absurd hm (hni c)⟩
    · obtain ⟨op, hop, _⟩ := N1.calls c p hp
      refine P1.lacks c p hp op hop (fun hcre => ?_)
      obtain ⟨r, hr⟩ := hcr c op hop hcre
      exact running_no_ret F1 c p hp r hr
    · rcases N1.upper n h with h | ⟨c, hc⟩
      · exact absurd h hn
      · exact absurd hc (hni c)
  clear hx hcr
  induction x2 with
  | nil => exact start
  | @snoc g T T' e xs hs ih =>
    have sub : ∀ c op, Ev.call c op ∈ h1 ++ g → Ev.call c op ∈ h1 ++ (g ++ e) := by
      intro c op hm
      rw [← List.append_assoc]
      exact List.mem_append_left _ hm
    have G := ih (fun c op hm => ho c op (sub c op hm)) (fun c op hm => hcr2 c op (List.mem_append_left _ hm))
    have joined : ∀ {g : List Ev} {T : Conc}, Steps (Conc.Step X) A g T → Steps (Conc.Step X) (.init s) (h1 ++ g) T := by
      intro g T hx
      induction hx with
      | nil => rw [List.append_nil]; exact x1
      | snoc _ hs ih => rw [← List.append_assoc]; exact ih.snoc hs
    have E := toExec (joined xs)
    have F := (joined xs).faulty (X := X) fine
    have E' := E.snoc hs
    rw [List.append_assoc] at E'
    rw [← List.append_assoc]
    exact G.step (PhaseInv.exec hE hR E (fun c op hm => ho c op (sub c op hm))) (NamesInv.exec F) (LockInv.exec F)
      (WfInv.exec hw hv E ((OkCalls.mono (fun c op hm => ho c op (sub c op hm)) hc))) (WfInv.exec hw hv E' (OkCalls.mono ho hc))
      (fun c op hm => hcr2 c op (List.mem_append_right _ hm)) hs

end

/-! ### Queries -/

section
variable {R : Json → UInt64 → Prop} {n : Identifier} {o : Owner}

theorem Sound'.lists {s : Rocks} (h : Sound' X R n o s) (wf : Wf X s.kv) (values : Values X (CanRead X) s.kv) :
    (rocksStoreFrom X (CanRead X) s).ListsOwner n o s := by
  have F := conformsFrom X s ⟨wf, values⟩
  have hr : (rocksStoreFrom X (CanRead X) s).Reach s := ⟨[], rfl, rfl, fun _ h => (nomatch h)⟩
  have hn : ((rocksStoreFrom X (CanRead X) s).graph s).indexed n = true := h.1
  intro env
  cases o with
  | vertex i =>
    have := F.answers hr env (.vertexWithPropertyPresence n)
    simp only [Answers] at this
    rw [if_pos hn] at this
    obtain ⟨l, hl, he⟩ := this
    refine ⟨_, by rw [F.value_eq hr, he]; rfl, fun t hv hp => ?_⟩
    rw [lookup_iff, hl.1]
    refine ⟨?_, hv⟩
    have ha : (s.kv .vertices).contains (vertexKey X i) = true := by
      rw [vertex_isSome s wf, Option.isSome_iff_ne_none]
      have hv' : (graph X s).vertex i = some t := hv
      rw [hv']; simp
    show (listed (s.kv .vertexPropertyValues) n i.bytes && _) = true
    rw [Bool.and_eq_true, vlisted_iff s wf]
    refine ⟨?_, ha⟩
    have hp' : (graph X s).vprop i n ≠ none := hp
    simp only [graph] at hp'
    cases hb : (s.kv .vertexProperties).get (vpKey X i n) with
    | none => rw [hb] at hp'; exact absurd rfl hp'
    | some b =>
      rw [hb] at hp'
      cases hw : X.codec.dec b with
      | none => exact absurd hw hp'
      | some w =>
        obtain ⟨u, _, hu⟩ := h.2 ha b w hb hw
        exact ⟨u, hu⟩
  | edge e =>
    have := F.answers hr env (.edgeWithPropertyPresence n)
    simp only [Answers] at this
    rw [if_pos hn] at this
    obtain ⟨l, hl, he⟩ := this
    refine ⟨_, by rw [F.value_eq hr, he]; rfl, fun ha hp => ?_⟩
    rw [hl.1]
    show listed (s.kv .edgePropertyValues) n (edgeKey X e) = true
    rw [elisted_iff s wf]
    have hp' : (graph X s).eprop e n ≠ none := hp
    simp only [graph] at hp'
    cases hb : (s.kv .edgeProperties).get (epKey X e n) with
    | none => rw [hb] at hp'; exact absurd rfl hp'
    | some b =>
      rw [hb] at hp'
      cases hw : X.codec.dec b with
      | none => exact absurd hw hp'
      | some w =>
        obtain ⟨u, _, hu⟩ := h.2 ha b w hb hw
        exact ⟨u, hu⟩

theorem Sound'.listsValues {s : Rocks} (h : Sound' X (fun w k => X.H w.stream = k) n o s) (wf : Wf X s.kv)
    (values : Values X (CanRead X) s.kv) : (rocksStoreFrom X (CanRead X) s).ListsValueOwner n o s := by
  have F := conformsFrom X s ⟨wf, values⟩
  have hr : (rocksStoreFrom X (CanRead X) s).Reach s := ⟨[], rfl, rfl, fun _ h => (nomatch h)⟩
  have hn : ((rocksStoreFrom X (CanRead X) s).graph s).indexed n = true := h.1
  intro env x
  cases o with
  | vertex i =>
    have := F.answers hr env (.vertexWithPropertyValue n x)
    simp only [Answers] at this
    rw [if_pos hn] at this
    obtain ⟨l, hl, he⟩ := this
    refine ⟨_, by rw [F.value_eq hr, he]; rfl, fun t hv hp => ?_⟩
    rw [lookup_iff, hl.1]
    refine ⟨?_, hv⟩
    have ha : (s.kv .vertices).contains (vertexKey X i) = true := by
      rw [vertex_isSome s wf, Option.isSome_iff_ne_none]
      have hv' : (graph X s).vertex i = some t := hv
      rw [hv']; simp
    show (vEntry s n (X.H x.stream) i && _) = true
    rw [Bool.and_eq_true]
    refine ⟨?_, ha⟩
    have hp' : (graph X s).vprop i n = some x := hp
    simp only [graph] at hp'
    cases hb : (s.kv .vertexProperties).get (vpKey X i n) with
    | none => rw [hb] at hp'; cases hp'
    | some b =>
      rw [hb] at hp'
      obtain ⟨u, rfl, hu⟩ := h.2 ha b x hb hp'
      exact hu
  | edge e =>
    have := F.answers hr env (.edgeWithPropertyValue n x)
    simp only [Answers] at this
    rw [if_pos hn] at this
    obtain ⟨l, hl, he⟩ := this
    refine ⟨_, by rw [F.value_eq hr, he]; rfl, fun ha hp => ?_⟩
    rw [hl.1]
    show eEntry X s n (X.H x.stream) e = true
    have hp' : (graph X s).eprop e n = some x := hp
    simp only [graph] at hp'
    cases hb : (s.kv .edgeProperties).get (epKey X e n) with
    | none => rw [hb] at hp'; cases hp'
    | some b =>
      rw [hb] at hp'
      obtain ⟨u, rfl, hu⟩ := h.2 ha b x hb hp'
      exact hu

end

end Rocks
end IndraDB
