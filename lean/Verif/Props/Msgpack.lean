import Verif.Proofs.Msgpack
import Verif.Proofs.MemHolds
import Verif.Props.MemoryAnySync
/-
C87: the persisted image of the memory datastore, byte by byte. C52 for the memory datastore whatever its lookups find.
-/
namespace IndraDB
open Mem Unpack

variable {b : Build} {V : Json → Prop} {utf8 : Bytes → Bool} {n levels : Nat}

/-- C52 whatever lookups find: the replies have only identifiers and values that were put in. -/
theorem C52_memory_any (b : Build) (I : Identifier → Prop) (V : Json → Prop) : (memStoreAny b).RepliesClosed I V :=
  fun hist _ ha r hr => (memAny_held hist ha MemDb.new (fun _ => MemDb.held_new)).2 r hr

theorem Query.All.mono {I I' : Identifier → Prop} {V V' : Json → Prop} (hI : ∀ x, I x → I' x) (hV : ∀ x, V x → V' x) :
    ∀ q : Query, q.All I V → q.All I' V' := by
  intro q
  induction q with
  | allVertex | allEdge | specificVertex _ => exact fun h => h
  | rangeVertex _ t _ => exact fun h x hx => hI x (h x hx)
  | specificEdge es => exact fun h e he => hI _ (h e he)
  | vertexWithPropertyPresence n | edgeWithPropertyPresence n => exact fun h => hI _ h
  | vertexWithPropertyValue n v | edgeWithPropertyValue n v => exact fun h => ⟨hI _ h.1, hV _ h.2⟩
  | pipe q _ _ t ih => exact fun h => ⟨ih h.1, fun x hx => hI x (h.2 x hx)⟩
  | pipeProperty q n ih => exact fun h => ⟨ih h.1, fun x hx => hI x (h.2 x hx)⟩
  | pipeWithPropertyPresence q n _ ih => exact fun h => ⟨ih h.1, hI _ h.2⟩
  | pipeWithPropertyValue q n v _ ih => exact fun h => ⟨ih h.1, hI _ h.2.1, hV _ h.2.2⟩
  | incl q ih => exact fun h => ih h
  | count q ih => exact fun h => ih h

theorem Op.All.mono {I I' : Identifier → Prop} {V V' : Json → Prop} (hI : ∀ x, I x → I' x) (hV : ∀ x, V x → V' x)
    (op : Op) (h : op.All I V) : op.All I' V' := by
  cases op with
  | sync => trivial
  | createVertex v => exact hI _ h
  | createVertexFromType _ t => exact hI _ h
  | createEdge e => exact hI _ h
  | get q => exact Query.All.mono hI hV q h
  | delete q => exact Query.All.mono hI hV q h
  | setProperties q n v => exact ⟨Query.All.mono hI hV q h.1, hI _ h.2.1, hV _ h.2.2⟩
  | bulkInsert items =>
    intro i hi
    have := h i hi
    cases i with
    | vertex v => exact hI _ this
    | edge e => exact hI _ this
    | vertexProperty id n v => exact ⟨hI _ this.1, hV _ this.2⟩
    | edgeProperty e n v => exact ⟨hI _ this.1, hI _ this.2.1, hV _ this.2.2⟩
  | indexProperty n => exact hI _ h

/-- What a history with strings in UTF-8 and values nested at most `n` levels deep leads to is saved as an image like that. -/
theorem memAny_image {hist : List ((Finder × HashOrder) × Op)} {I : Identifier → Prop} (hh : ∀ p ∈ hist, p.2.All I V)
    {d : MemDb} (hd : d = (memStoreAny b).run hist MemDb.new) (hal : (memStoreAny b).alive d = true) (Q : ImageOrder) :
    (d.mem.image Q).Holds I V := by
  have hp : d.poisoned = false := by
    have : (!d.poisoned) = true := hal
    simpa using this
  have := (memAny_held (b := b) hist hh MemDb.new (fun _ => MemDb.held_new)).1 (by rw [← hd]; exact hp)
  rw [← hd] at this
  exact image_holds this.rev this.graph this.idx Q

theorem Image.Holds.mono {I I' : Identifier → Prop} {V V' : Json → Prop} {i : Image} (h : i.Holds I V) (hI : ∀ x, I x → I' x)
    (hV : ∀ x, V x → V' x) : i.Holds I' V' where
  vertices := fun e he => hI _ (h.vertices e he)
  edges := fun e he => hI _ (h.edges e he)
  reversedEdges := fun e he => hI _ (h.reversedEdges e he)
  vertexProperties := fun e he => ⟨hI _ (h.vertexProperties e he).1, hV _ (h.vertexProperties e he).2⟩
  edgeProperties := fun e he => ⟨hI _ (h.edgeProperties e he).1, hI _ (h.edgeProperties e he).2.1, hV _ (h.edgeProperties e he).2.2⟩
  propertyValues := fun e he => ⟨hI _ (h.propertyValues e he).1, fun s hs => ⟨hV _ ((h.propertyValues e he).2 s hs).1,
    fun m hm => by
      have := ((h.propertyValues e he).2 s hs).2 m hm
      cases m with
      | inl _ => trivial
      | inr e => exact hI _ this⟩⟩

/-- What the system calls of `sync` do to the target, whatever fails: nothing, or it is replaced by the first part of the
image, which is all of it unless the final flush fails. -/
theorem syncOps_any (p : Path) (io : SyncIo) (bytes : Bytes) (hw : io.Writes bytes) :
    ((syncOps (some p) io).2 = .ok () ∧ ∃ ws : List Bytes, ws.flatten <+: bytes ∧
      (syncOps (some p) io).1 = (.create io.temp :: ws.map (.append io.temp)) ++ [.rename io.temp p]) ∨
    ((syncOps (some p) io).2 ≠ .ok () ∧ ∀ o ∈ (syncOps (some p) io).1, o.On io.temp) := by
  unfold syncOps
  cases io.createOk with
  | false => right; simp
  | true =>
    simp only [Bool.not_true, Bool.false_eq_true, if_false]
    cases io.headFail with
    | some n => right; exact ⟨by simp, FsOp.on_temp _ _ (by simp [FsOp.On])⟩
    | none =>
      simp only
      cases io.renameOk with
      | false => right; exact ⟨by simp, FsOp.on_temp _ _ (by simp [FsOp.On])⟩
      | true =>
        left
        refine ⟨rfl, _, ?_, rfl⟩
        rw [List.flatten_append, ← hw]
        refine (List.prefix_append_right_inj _).2 ?_
        cases io.tailFail with
        | none => exact List.prefix_rfl
        | some n =>
          simp only
          conv => rhs; rw [← List.take_append_drop n io.tail, List.flatten_append]
          exact List.prefix_append _ _

/-- The target after `sync`, complete or killed anywhere, whatever fails: as before, or the first part of the image. -/
theorem sync_target (bytes : Bytes) (p : Path) (fs : Fs) (io : SyncIo) (ht : io.temp ≠ p) (hw : io.Writes bytes) (k cut : Nat) :
    Fs.run (crashOps (syncOps (some p) io).1 k cut) fs p = fs p ∨
      ∃ part, part <+: bytes ∧ Fs.run (crashOps (syncOps (some p) io).1 k cut) fs p = some part := by
  rcases syncOps_any p io bytes hw with ⟨_, ws, hws, hops⟩ | ⟨_, hon⟩
  · rw [hops]
    have hw' : SyncIo.Writes ⟨io.temp, true, ws, [], none, none, true⟩ ws.flatten := by simp [SyncIo.Writes]
    have := (C32_memory_crash ws.flatten p fs ⟨io.temp, true, ws, [], none, none, true⟩ ht hw' rfl k cut).1
    simp only [syncOps, Bool.not_true, Bool.false_eq_true, if_false, List.append_nil, if_true] at this
    rcases this with h | h
    · exact Or.inl h
    · exact Or.inr ⟨_, hws, h⟩
  · exact Or.inl (Fs.run_other (Ne.symm ht) _ _ (crashOps_on hon k cut))

theorem msgpack_dec (hv : utf8 [86, 101, 114, 116, 101, 120] = true) (he : utf8 [69, 100, 103, 101] = true)
    {i : Image} (h : i.Holds (·.Typed utf8) (Json.Fits utf8 n)) (hc : n + 8 ≤ levels) (hl : i.pack.length < 4294967296) :
    (msgpack utf8 levels).dec ((msgpack utf8 levels).enc i) = some i := by
  have := takes_image hv he h hc hl []
  rw [List.append_nil] at this
  show (unpackImage utf8 levels i.pack).map (·.1) = _
  rw [this]; rfl

theorem msgpack_cut (hv : utf8 [86, 101, 114, 116, 101, 120] = true) (he : utf8 [69, 100, 103, 101] = true)
    {i : Image} (h : i.Holds (·.Typed utf8) (Json.Fits utf8 n)) (hc : n + 8 ≤ levels) (hl : i.pack.length < 4294967296)
    {part : Bytes} (hp : part <+: i.pack) (hne : part ≠ i.pack) : (msgpack utf8 levels).dec part = none := by
  show (unpackImage utf8 levels part).map (·.1) = _
  rw [Unpack.Takes.cut (Ext.image levels) (takes_image hv he h hc hl) hp hne]; rfl

section
variable (hv : utf8 [86, 101, 114, 116, 101, 120] = true) (he : utf8 [69, 100, 103, 101] = true)
  (hist : List ((Finder × HashOrder) × Op)) (hh : ∀ p ∈ hist, p.2.All (·.Typed utf8) V)
  (hfit : ∀ v, V v → v.Fits utf8 n) (hc : n + 8 ≤ levels)
  (d : MemDb) (hd : d = (memStoreAny b).run hist MemDb.new) (hal : (memStoreAny b).alive d = true)
  (F : Finder) (Q : ImageOrder) (p : Path) (fs : Fs) (io : SyncIo)
  (hl : ((msgpack utf8 levels).enc (d.mem.image Q)).length < 4294967296)
  (hw : io.Writes ((msgpack utf8 levels).enc (d.mem.image Q)))
include hv he hh hfit hc hd hal hl

/-- What reading the image back gives: the same graph, and the same answers for coherent values. -/
theorem load_same : (memStoreAny b).graph ⟨(d.mem.image Q).load F, false⟩ = (memStoreAny b).graph d ∧
    (Coherent V → ∀ hist', (∀ p ∈ hist', p.2.All anyId V) →
      (memStoreAny b).replies hist' ⟨(d.mem.image Q).load F, false⟩ = (memStoreAny b).replies hist' d) := by
  refine ⟨image_load_graph F d.mem Q, fun hV hist' hh' => ?_⟩
  have hany : ∀ p ∈ hist, p.2.All anyId V := fun p hp => Op.All.mono (fun _ _ => trivial) (fun _ h => h) p.2 (hh p hp)
  let io : SyncIo := ⟨[1], true, [(msgpack utf8 levels).enc (d.mem.image Q)], [], none, none, true⟩
  obtain ⟨h, h1, _, _, h4⟩ := C32_memory_any_partial hV hist hany (by rw [← hd]; exact hal) F (msgpack utf8 levels) Q d hd
    (msgpack_dec hv he ((memAny_image hh hd hal Q).mono (fun _ h => h) hfit) hc hl) [2] (fun _ => none) io (by simp [io, SyncIo.Writes]) rfl rfl
  have h5 := readMsgpack_any F d (msgpack utf8 levels) Q
    (msgpack_dec hv he ((memAny_image hh hd hal Q).mono (fun _ h => h) hfit) hc hl) [2] (fun _ => none) io (by simp [io, SyncIo.Writes]) rfl rfl
  rw [h5] at h1
  cases h1
  exact h4 hist' hh'

include hw

/-- **C87**, with the bytes of the file as `rmp_serde` writes and reads them. A `sync` of a database built by any history
of calls, completed or killed anywhere, whatever system calls fail - also those of the final flush, which nobody notices:
reading the file afterwards gives what it gave before, the database that was saved, or an error. It never gives any other
database. Strings are UTF-8 (`utf8` is the check `str::from_utf8`), values are nested at most `levels - 8` deep and the file is below 4 GiB.
Missing: deeper values, for which it is false (`C87_memory_refuted`), and larger files. -/
theorem C87_memory_partial (ht : io.temp ≠ p) (k cut : Nat) :
    MemHandle.readMsgpack F (msgpack utf8 levels) (Fs.run (crashOps (syncOps (some p) io).1 k cut) fs) p =
      MemHandle.readMsgpack F (msgpack utf8 levels) fs p ∨
    (∃ h, MemHandle.readMsgpack F (msgpack utf8 levels) (Fs.run (crashOps (syncOps (some p) io).1 k cut) fs) p = .ok h ∧
      h.path = some p ∧ (memStoreAny b).graph h.db = (memStoreAny b).graph d ∧
      (Coherent V → ∀ hist', (∀ p ∈ hist', p.2.All anyId V) →
        (memStoreAny b).replies hist' h.db = (memStoreAny b).replies hist' d)) ∨
    MemHandle.readMsgpack F (msgpack utf8 levels) (Fs.run (crashOps (syncOps (some p) io).1 k cut) fs) p =
      .error (.err .datastore) := by
  have hi := (memAny_image hh hd hal Q).mono (I' := (·.Typed utf8)) (fun _ h => h) hfit
  rcases sync_target _ p fs io ht hw k cut with h | ⟨part, hp, h⟩
  · left; simp only [MemHandle.readMsgpack, h]
  · by_cases hpe : part = (d.mem.image Q).pack
    · right; left
      subst hpe
      refine ⟨⟨⟨(d.mem.image Q).load F, false⟩, some p⟩, ?_, rfl, load_same hv he hist hh hfit hc d hd hal F Q hl⟩
      simp only [MemHandle.readMsgpack, h]
      rw [show (msgpack utf8 levels).dec (d.mem.image Q).pack = _ from msgpack_dec hv he hi hc hl]
    · right; right
      simp only [MemHandle.readMsgpack, h, msgpack_cut hv he hi hc hl hp hpe]

/-- A `sync` that reports success and whose final flush did not fail can be read back, and gives the database that was saved.
Missing: deeper values, for which it is false (`C87_memory_refuted`), and larger files. -/
theorem C87_memory_readable_partial (hf : io.FlushOk) (hok : (syncOps (some p) io).2 = .ok ()) :
    ∃ h, MemHandle.readMsgpack F (msgpack utf8 levels) (Fs.run (syncOps (some p) io).1 fs) p = .ok h ∧ h.path = some p ∧
      (memStoreAny b).graph h.db = (memStoreAny b).graph d ∧
      (Coherent V → ∀ hist', (∀ p ∈ hist', p.2.All anyId V) →
        (memStoreAny b).replies hist' h.db = (memStoreAny b).replies hist' d) :=
  ⟨_, readMsgpack_any F d (msgpack utf8 levels) Q
    (msgpack_dec hv he ((memAny_image hh hd hal Q).mono (fun _ h => h) hfit) hc hl) p fs io hw hf hok, rfl,
    load_same hv he hist hh hfit hc d hd hal F Q hl⟩

end

/-! ### Values that are nested too deeply -/

/-- The reader refuses whatever begins with `w`. -/
def Unpack.Refuses {α : Type} (p : Unpack α) (w : Bytes) : Prop := ∀ r, p (w ++ r) = none

theorem Unpack.Takes.refuses {α β : Type} {p : Unpack α} {f : α → Unpack β} {w w' : Bytes} {a : α} (h : Takes p w a)
    (h' : Refuses (f a) w') : Refuses (p.bind f) (w ++ w') := by
  intro r
  simp only [Unpack.bind, List.append_assoc, h (w' ++ r)]
  exact h' r

theorem Unpack.Refuses.bind {α β : Type} {p : Unpack α} {f : α → Unpack β} {w : Bytes} (h : Refuses p w) :
    Refuses (p.bind f) w := by
  intro r
  simp only [Unpack.bind, h r]

theorem Unpack.Refuses.append {α : Type} {p : Unpack α} {w : Bytes} (h : Refuses p w) (w' : Bytes) : Refuses p (w ++ w') := by
  intro r
  rw [List.append_assoc]
  exact h _

namespace W
/-- `null` in `n` arrays of one element: `[[..[null]..]]`. -/
def nest : Nat → Json
  | 0 => .null
  | n + 1 => .arr (.cons (nest n) .nil)

/-- Strings of ASCII characters are UTF-8. -/
def ascii (s : Bytes) : Bool := s.all (fun c => decide (c < 128))

/-- A vertex with such a value. -/
def nestHist (n : Nat) : List ((Finder × HashOrder) × Op) :=
  [ Op.createVertex ⟨u 1, t⟩, .setProperties (.specificVertex [u 1]) p (nest n) ].map (fun o => ((HashEq.byHash, HashOrder.sorted), o))

/-- The state they lead to. -/
def nestDb (n : Nat) : MemDb := (memStoreAny .debug).run (nestHist n) MemDb.new
end W

theorem nest_typed : ∀ n, (W.nest n).Typed utf8
  | 0 => trivial
  | n + 1 => ⟨nest_typed n, trivial⟩

theorem nest_levels : ∀ n, (W.nest n).levels = n
  | 0 => rfl
  | n + 1 => by simp only [W.nest, Json.levels, JArr.levels, nest_levels n]; omega

theorem nest_refused : ∀ c n, c ≤ n → Refuses (unpackJson utf8 c) (W.nest n).pack
  | 0, _, _ => fun _ => rfl
  | c + 1, 0, h => by omega
  | c + 1, n + 1, h => by
    have h1 : (W.nest (n + 1)).pack = packArr 1 ++ ((W.nest n).pack ++ []) := by simp [W.nest, Json.pack, JArr.pack, JArr.length]
    rw [h1]
    unfold unpackJson
    refine (reads_arr (by omega)).refuses ?_
    simp only
    split
    · exact fun _ => rfl
    · exact ((nest_refused c n (by omega)).append []).bind.bind

theorem deep_image (n : Nat) : (W.nestDb n).mem.image .sorted = ⟨[(W.u 1, W.t)], [], [], [((W.u 1, W.p), W.nest n)], [], []⟩ := rfl

theorem deep_refused (hn : levels ≤ n) (h8 : 8 ≤ levels) (ht : W.t.Typed utf8) (hp : W.p.Typed utf8) :
    (msgpack utf8 levels).dec (((W.nestDb n).mem.image .sorted).pack) = none := by
  have : Refuses (unpackImage utf8 levels) ((W.nestDb n).mem.image .sorted).pack := by
    rw [deep_image]
    unfold Image.pack unpackImage
    refine Takes.refuses (reads_arr (by omega)) ?_
    simp only [show ¬ levels ≤ 1 by omega, if_false, if_true]
    refine Takes.refuses (takes_entries (f := Uuid.pack) (g := Identifier.pack) (by decide) (by omega)
      (fun e he => by rw [List.mem_singleton] at he; subst he; exact ⟨takes_uuid _, takes_identifier ht⟩)) ?_
    refine Takes.refuses (takes_seq (by decide) (by omega) (fun e he => by cases he)) ?_
    refine Takes.refuses (takes_seq (by decide) (by omega) (fun e he => by cases he)) ?_
    refine (Refuses.append (Refuses.bind ?_) _)
    refine Takes.refuses (reads_map (by simp)) ?_
    simp only [show ¬ levels - 1 ≤ 1 by omega, if_false, packAll]
    refine Refuses.append (Refuses.bind ?_) _
    refine Takes.refuses (takes_fields (by omega) (by omega) ((takes_uuid _).bind ((takes_identifier hp).then (Takes.ret _)))) ?_
    exact (nest_refused _ n (by omega)).bind
  have := this []
  rw [List.append_nil] at this
  show (unpackImage utf8 levels _).map _ = none
  rw [this]; rfl

/-- `sync` writes values of any depth; `read_msgpack_db` refuses files with values nested `levels` deep (the decoder of
`rmp_serde` counts levels, its encoder does not). No system call fails, `sync` reports success and replaces the previous
image by one that cannot be read. -/
theorem C87_memory_refuted (hn : levels ≤ n) (h8 : 8 ≤ levels) (ht : W.t.Typed utf8) (hp : W.p.Typed utf8) (F : Finder) (fs : Fs)
    (p t : Path) : ∃ io : SyncIo, io.temp = t ∧
    io.Writes ((msgpack utf8 levels).enc ((W.nestDb n).mem.image .sorted)) ∧ io.FlushOk ∧ (syncOps (some p) io).2 = .ok () ∧
    MemHandle.readMsgpack F (msgpack utf8 levels) (Fs.run (syncOps (some p) io).1 fs) p = .error (.err .datastore) := by
  let bytes := (msgpack utf8 levels).enc ((W.nestDb n).mem.image .sorted)
  refine ⟨⟨t, true, [bytes], [], none, none, true⟩, rfl, by simp [bytes, SyncIo.Writes], rfl, rfl, ?_⟩
  have hf : Fs.run (syncOps (some p) ⟨t, true, [bytes], [], none, none, true⟩).1 fs p = some bytes := by
    simp [syncOps, Fs.run, FsOp.apply]
  simp only [MemHandle.readMsgpack, hf]
  rw [show (msgpack utf8 levels).dec bytes = none from deep_refused hn h8 ht hp]

/-! ### Examples -/

/-- The limit of `rmp_serde`, 1024 levels: the file with a value of 1024 levels cannot be read. -/
example (F : Finder) (fs : Fs) : ∃ io : SyncIo, io.temp = [1] ∧
    io.Writes ((msgpack W.ascii 1024).enc ((W.nestDb 1024).mem.image .sorted)) ∧ io.FlushOk ∧ (syncOps (some [2]) io).2 = .ok () ∧
    MemHandle.readMsgpack F (msgpack W.ascii 1024) (Fs.run (syncOps (some [2]) io).1 fs) [2] = .error (.err .datastore) :=
  C87_memory_refuted (utf8 := W.ascii) (Nat.le_refl _) (by omega) (show W.ascii _ = true by decide) (show W.ascii _ = true by decide) F fs [2] [1]

namespace W
/-- Integers only, and shallow. -/
def Plain (v : Json) : Prop := v.AllNums Num.IsInt ∧ v.Fits ascii 0

theorem plain_coherent : Coherent Plain := fun a c ha hc h => coherent_ints a c ha.1 hc.1 h

theorem mixed_plain : ∀ p ∈ mixed, p.2.All (·.Typed ascii) Plain := by
  have hn : ∀ k, Plain (n k) := fun k => ⟨trivial, trivial, Nat.le_refl 0⟩
  have h1 : t.Typed ascii := rfl
  have h2 : t2.Typed ascii := rfl
  have h3 : W.p.Typed ascii := rfl
  have h4 : q.Typed ascii := rfl
  intro p hp
  simp only [W.mixed, W.ways, W.calls, List.zipWith_cons_cons, List.zipWith_nil_right, List.mem_cons, List.not_mem_nil, or_false] at hp
  rcases hp with rfl | rfl | rfl | rfl | rfl | rfl | rfl | rfl | rfl | rfl
  · exact h1
  · exact h2
  · exact h1
  · exact h2
  · exact h1
  · exact ⟨trivial, h3, hn _⟩
  · exact h3
  · exact ⟨trivial, h4, hn _⟩
  · exact ⟨trivial, h3, hn _⟩
  · exact ⟨trivial, h3, hn _⟩
end W

/-- The hypotheses of `C87_memory_partial` and `C87_memory_readable_partial` hold for the example database. -/
example : W.ascii [86, 101, 114, 116, 101, 120] = true ∧ W.ascii [69, 100, 103, 101] = true ∧
    (∀ p ∈ W.mixed, p.2.All (·.Typed W.ascii) W.Plain) ∧ (∀ v, W.Plain v → v.Fits W.ascii 0) ∧ Coherent W.Plain ∧ 0 + 8 ≤ 1024 ∧
    W.any = (memStoreAny .debug).run W.mixed MemDb.new ∧ (memStoreAny .debug).alive W.any = true ∧
    ((msgpack W.ascii 1024).enc (W.any.mem.image .sorted)).length < 4294967296 ∧
    (W.io ((msgpack W.ascii 1024).enc (W.any.mem.image .sorted))).Writes ((msgpack W.ascii 1024).enc (W.any.mem.image .sorted)) ∧
    (W.io ((msgpack W.ascii 1024).enc (W.any.mem.image .sorted))).temp ≠ [2] := by
  refine ⟨by decide, by decide, W.mixed_plain, fun v h => h.2, W.plain_coherent, by omega, rfl, W.mixed_ok.2.2.2.2, by decide +kernel, ?_, by decide⟩
  generalize (msgpack W.ascii 1024).enc (W.any.mem.image .sorted) = x
  simp only [SyncIo.Writes, W.io, List.flatten_cons, List.flatten_nil, List.append_nil, List.take_append_drop]

/-- The hypothesis of `C52_memory_any` holds for the example history, with lookups of three kinds. -/
example : ∀ r, .ok r ∈ (memStoreAny .debug).replies W.mixed MemDb.new → r.All (·.Typed W.ascii) W.Plain :=
  C52_memory_any .debug _ _ W.mixed (memAny_ok _) W.mixed_plain

/-- All three outcomes happen: killed before the rename the old file is read; completed, the new database; with a final
flush that fails after the first byte of the image, the file is refused. -/
example :
    let C := msgpack W.ascii 1024
    let bytes := C.enc (W.any.mem.image .sorted)
    let old : Fs := fun x => if x = [2] then some (C.enc (MemDb.new.mem.image .sorted)) else none
    let flush : SyncIo := { W.io bytes with tailFail := some 0 }
    let read := fun fs => (MemHandle.readMsgpack Finder.byEq C fs [2]).map (fun h => (memStoreAny .debug).graph h.db |>.edge W.e12)
    read (Fs.run (crashOps (syncOps (some [2]) (W.io bytes)).1 2 5) old) = .ok false ∧
    read (Fs.run (crashOps (syncOps (some [2]) (W.io bytes)).1 9 0) old) = .ok true ∧
    read (Fs.run (crashOps (syncOps (some [2]) flush).1 9 0) old) = .error (.err .datastore) ∧
    (syncOps (some [2]) flush).2 = .ok () := by
  refine ⟨?_, ?_, ?_, ?_⟩ <;> decide +kernel

end IndraDB
