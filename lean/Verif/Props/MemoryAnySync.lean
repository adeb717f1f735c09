import Verif.Props.MemoryAny
import Verif.Props.MemorySync
/-
C32 with arbitrary hash map lookups: the map that is filled while an image is read has its own random hash seed.
-/
set_option linter.unusedSimpArgs false
namespace IndraDB
open Mem

variable {b : Build} {V : Json → Prop} {K : HashEq}

/-- Reading an image back gives the same graph, whatever lookups find. -/
theorem image_load_graph (F : Finder) (m : Mem) (Q : ImageOrder) : ((m.image Q).load F).graph = m.graph := by
  have h1 : ((m.image Q).load F).vertices = m.vertices := loadMap_perm _ (List.Perm.refl _)
  have h2 : ((m.image Q).load F).edges = m.edges := loadSet_perm _ (List.Perm.refl _)
  have h3 : ((m.image Q).load F).vertexProperties = m.vertexProperties := loadMap_perm _ (List.Perm.refl _)
  have h4 : ((m.image Q).load F).edgeProperties = m.edgeProperties := loadMap_perm _ (List.Perm.refl _)
  have h5 : ∀ n, ((m.image Q).load F).propertyValues.contains n = m.propertyValues.contains n := by
    intro n
    have hn : ((Q.names m.propertyValues.toList).map (·.1)).Nodup :=
      ((Q.names_perm m.propertyValues.toList).map _).nodup_iff.2 m.propertyValues.nodup_keys
    have hn2 : (((Q.names m.propertyValues.toList).map ((fun e => (e.1, loadContainer F e.2)) ∘ fun e =>
        (e.1, (Q.values e.2).map (fun s => (s.1, Q.members s.2.elems))))).map (·.1)).Nodup := by
      rw [List.map_map]; exact hn
    rw [Bool.eq_iff_iff, SMap.contains_iff, SMap.contains_iff]
    simp only [Image.load, Mem.image, List.map_map]
    constructor
    · rintro ⟨c, hc⟩
      rw [loadMap_get hn2, List.mem_map] at hc
      obtain ⟨e, he, h3⟩ := hc
      rw [(Q.names_perm _).mem_iff, SMap.mem_toList'] at he
      have : e.1 = n := congrArg Prod.fst h3
      exact ⟨e.2, this ▸ he⟩
    · rintro ⟨c, hc⟩
      have : (n, c) ∈ Q.names m.propertyValues.toList := by
        rw [(Q.names_perm _).mem_iff, SMap.mem_toList]; exact hc
      exact ⟨_, (loadMap_get hn2 n _).2 (List.mem_map.2 ⟨(n, c), this, rfl⟩)⟩
  ext <;> simp only [Mem.graph, h1, h2, h3, h4, h5]

theorem loadContainer_coherent (F : Finder) (hV : Coherent V) (l : List (Json × List Member)) (hl : ∀ e ∈ l, V e.1) :
    loadContainer F l = loadContainer K l ∧ (loadContainer K l).Distinct K ∧ (loadContainer K l).KeysIn V :=
  Container.foldl_any (K := K) (V := V) (l := l)
    (fun e he _ hd hk => ⟨Container.upsert_any hV hd hk (hl e he) _, Container.distinct_upsert hd _ _, hk.upsert (hl e he) _⟩)
    [] List.Pairwise.nil (fun _ he => by cases he)

/-- Reading an image back gives the same state whatever lookups find, for coherent values. -/
theorem image_load_coherent (F : Finder) (hV : Coherent V) {m : Mem} (h : Tidy K V m) (Q : ImageOrder) :
    (m.image Q).load F = (m.image Q).load K ∧ Tidy K V ((m.image Q).load K) := by
  have hval : ∀ e ∈ Q.names m.propertyValues.toList, ∀ x ∈ (Q.values e.2).map (fun s => (s.1, Q.members s.2.elems)), V x.1 := by
    intro e he x hx
    rw [(Q.names_perm _).mem_iff, SMap.mem_toList'] at he
    obtain ⟨s, hs, rfl⟩ := List.mem_map.1 hx
    exact h.keys e.1 e.2 he s ((Q.values_perm e.2).mem_iff.1 hs)
  have hn : ((Q.names m.propertyValues.toList).map (·.1)).Nodup :=
    ((Q.names_perm m.propertyValues.toList).map _).nodup_iff.2 m.propertyValues.nodup_keys
  have hn2 : (((Q.names m.propertyValues.toList).map ((fun e => (e.1, loadContainer K e.2)) ∘ fun e =>
      (e.1, (Q.values e.2).map (fun s => (s.1, Q.members s.2.elems))))).map (·.1)).Nodup := by
    rw [List.map_map]; exact hn
  have hpv : ∀ n c, ((m.image Q).load K).propertyValues.get n = some c → c.Distinct K ∧ c.KeysIn V := by
    intro n c hc
    simp only [Image.load, Mem.image, List.map_map] at hc
    rw [loadMap_get hn2, List.mem_map] at hc
    obtain ⟨e, he, h3⟩ := hc
    have : loadContainer K ((Q.values e.2).map (fun s => (s.1, Q.members s.2.elems))) = c := congrArg Prod.snd h3
    rw [← this]
    exact (loadContainer_coherent K.finder hV _ (hval e he)).2
  refine ⟨?_, fun n c hc => (hpv n c hc).1, fun n c hc => (hpv n c hc).2, ?_, ?_⟩
  · simp only [Image.load, Mem.image, List.map_map]
    congr 2
    refine List.map_congr_left fun e he => ?_
    simp only [Function.comp_apply]
    rw [(loadContainer_coherent (K := K) F hV _ (hval e he)).1]
  · intro p v hv
    have : ((m.image Q).load K).vertexProperties = m.vertexProperties := loadMap_perm _ (List.Perm.refl _)
    rw [this] at hv
    exact h.vprops p v hv
  · intro p v hv
    have : ((m.image Q).load K).edgeProperties = m.edgeProperties := loadMap_perm _ (List.Perm.refl _)
    rw [this] at hv
    exact h.eprops p v hv

/-- `read_msgpack_db` after a successful `sync`, whatever its lookups find. -/
theorem readMsgpack_any (F : Finder) (d : MemDb) (C : ImageCodec) (Q : ImageOrder)
    (hC : C.dec (C.enc (d.mem.image Q)) = some (d.mem.image Q)) (p : Path) (fs : Fs) (io : SyncIo)
    (hw : io.Writes (C.enc (d.mem.image Q))) (hf : io.FlushOk) (hok : (syncOps (some p) io).2 = .ok ()) :
    MemHandle.readMsgpack F C (Fs.run (syncOps (some p) io).1 fs) p = .ok ⟨⟨(d.mem.image Q).load F, false⟩, some p⟩ := by
  rcases syncOps_shape p io _ hw hf with ⟨_, ws, hws, hops⟩ | ⟨hne, _⟩
  rotate_left
  · exact absurd hok hne
  have hfile : Fs.run (syncOps (some p) io).1 fs p = some (C.enc (d.mem.image Q)) := by
    rw [hops, Fs.run_append]
    show (Fs.run (ws.map (.append io.temp)) ((FsOp.create io.temp).apply fs)) |> fun g => (FsOp.rename io.temp p).apply g p = _
    have := (Fs.append_run io.temp ws ((FsOp.create io.temp).apply fs) [] (by simp [FsOp.apply])).1
    simp only [FsOp.apply, if_true] at this ⊢
    rw [this, hws]; simp
  simp only [MemHandle.readMsgpack, hfile, hC]

/-- What is true of the round trip in C32 for all values and lookups: the database read back has the same graph, hence
the same vertices, edges, properties and indexed names. Missing: that the index is the same, see
`C32_memory_refuted_lookup` and `C32_memory_any_partial`. -/
theorem C32_memory_graph_partial (F : Finder) (d : MemDb) (C : ImageCodec) (Q : ImageOrder)
    (hC : C.dec (C.enc (d.mem.image Q)) = some (d.mem.image Q)) (p : Path) (fs : Fs) (io : SyncIo)
    (hw : io.Writes (C.enc (d.mem.image Q))) (hf : io.FlushOk) (hok : (syncOps (some p) io).2 = .ok ()) :
    ∃ h, MemHandle.readMsgpack F C (Fs.run (syncOps (some p) io).1 fs) p = .ok h ∧ h.path = some p ∧
      (memStoreAny b).graph h.db = (memStoreAny b).graph d :=
  ⟨_, readMsgpack_any F d C Q hC p fs io hw hf hok, rfl, image_load_graph F d.mem Q⟩

/-- The round trip in C32 for coherent values and whatever lookups find: every further history of calls about coherent
values is answered as by the database that was saved. -/
theorem C32_memory_any_partial (hV : Coherent V) (hist : List ((Finder × HashOrder) × Op)) (hh : ∀ p ∈ hist, p.2.All anyId V)
    (hal : (memStoreAny b).alive ((memStoreAny b).run hist MemDb.new) = true)
    (F : Finder) (C : ImageCodec) (Q : ImageOrder) (d : MemDb) (hd : d = (memStoreAny b).run hist MemDb.new)
    (hC : C.dec (C.enc (d.mem.image Q)) = some (d.mem.image Q)) (p : Path) (fs : Fs) (io : SyncIo)
    (hw : io.Writes (C.enc (d.mem.image Q))) (hf : io.FlushOk) (hok : (syncOps (some p) io).2 = .ok ()) :
    ∃ h, MemHandle.readMsgpack F C (Fs.run (syncOps (some p) io).1 fs) p = .ok h ∧ h.path = some p ∧
      (memStoreAny b).graph h.db = (memStoreAny b).graph d ∧
      ∀ hist', (∀ p ∈ hist', p.2.All anyId V) → (memStoreAny b).replies hist' h.db = (memStoreAny b).replies hist' d := by
  obtain ⟨e, ht⟩ := memAny_run_coherent (b := b) HashEq.byHash hV hist hh MemDb.new tidy_empty
  refine ⟨_, readMsgpack_any F d C Q hC p fs io hw hf hok, rfl, image_load_graph F d.mem Q, ?_⟩
  intro hist' hh'
  rw [← e, ← hd] at ht
  obtain ⟨h1, h2⟩ := image_load_coherent F hV ht Q
  have hr : (MS b).Reach d := ⟨plain hist, by rw [hd, e]; rfl, by rw [hd]; exact hal, memStore_ok _⟩
  obtain ⟨hp, hinv⟩ := memStore_reach hr
  rw [memAny_replies_coherent HashEq.byHash hV hist' hh' d ht]
  have h3 := memAny_replies_coherent (b := b) HashEq.byHash hV hist' hh' ⟨(d.mem.image Q).load HashEq.byHash.finder, false⟩ h2
  rw [h1]
  exact h3.trans (MemDb.eqv_replies (plain hist') (d := d) (d' := ⟨(d.mem.image Q).load HashEq.byHash.finder, false⟩)
    (Mem.image_load hinv.wf.distinct Q) hp).1.symm

namespace W
/-- Two vertices with values `3` and `3.0`, found separately. -/
def two (F : Finder) : List ((Finder × HashOrder) × Op) :=
  [ Op.createVertex ⟨u 1, t⟩, .createVertex ⟨u 2, t⟩, .indexProperty p,
    .setProperties (.specificVertex [u 1]) p (n 3), .setProperties (.specificVertex [u 2]) p three ].map
    (fun o => ((F, HashOrder.sorted), o))

/-- The state they lead to. -/
def twoDb : MemDb := (memStoreAny .debug).run (two HashEq.byHash) MemDb.new

/-- A codec that knows the image of this state only. -/
def twoCodec : ImageCodec :=
  ⟨fun i => if i = twoDb.mem.image .sorted then [7, 7] else [9], fun b => if b = [7, 7] then some (twoDb.mem.image .sorted) else none⟩
end W

/-- The round trip fails if equal values hash differently: the index of the saved database lists both vertices; the map
of the process that reads the image happens to find `3` when it inserts `3.0`, replaces its set, and the first vertex is
gone from the index - although it still has the property. There are no I/O errors. -/
theorem C32_memory_refuted_lookup : ∃ F F' : Finder, ∃ h,
    (memStoreAny .debug).CheckedHist .debug (W.two F) MemDb.new ∧
    W.twoDb = (memStoreAny .debug).run (W.two F) MemDb.new ∧
    MemHandle.readMsgpack F' W.twoCodec (Fs.run (syncOps (some [2]) (W.io [7, 7])).1 (fun _ => none)) [2] = .ok h ∧
    (memStoreAny .debug).value (F, HashOrder.sorted) (.vertexWithPropertyPresence W.p) W.twoDb
      = .ok (.vertices [⟨W.u 1, W.t⟩, ⟨W.u 2, W.t⟩]) ∧
    (memStoreAny .debug).value (F', HashOrder.sorted) (.vertexWithPropertyPresence W.p) h.db = .ok (.vertices [⟨W.u 2, W.t⟩]) ∧
    ((memStoreAny .debug).graph h.db).vprop (W.u 1) W.p = some (W.n 3) := by
  refine ⟨HashEq.byHash, Finder.byEq, ⟨⟨(W.twoDb.mem.image .sorted).load Finder.byEq, false⟩, some [2]⟩,
    ⟨trivial, trivial, trivial, Or.inl rfl, Or.inl rfl, trivial⟩, rfl, ?_, by decide +kernel, by decide +kernel,
    by decide +kernel⟩
  exact readMsgpack_any Finder.byEq W.twoDb W.twoCodec .sorted (by simp [W.twoCodec]) [2] _ (W.io [7, 7])
    (by simp [W.twoCodec, W.io, SyncIo.Writes]) rfl rfl

/-- The hypotheses hold for the example database (see the examples for `W.mixed`), read back with other lookups. -/
example : (memStoreAny .debug).run W.mixed MemDb.new = W.demo .debug ∧
    W.imageCodec.dec (W.imageCodec.enc ((W.demo .debug).mem.image .sorted)) = some ((W.demo .debug).mem.image .sorted) ∧
    (W.io [7, 7]).Writes (W.imageCodec.enc ((W.demo .debug).mem.image .sorted)) ∧
    (W.io [7, 7]).FlushOk ∧ (syncOps (some [2]) (W.io [7, 7])).2 = .ok () := by
  refine ⟨?_, ?_, ?_, rfl, rfl⟩
  · exact (memAny_coherent .debug coherent_ints W.mixed W.mixed_ok.1).1
  · simp [W.imageCodec]
  · simp [W.imageCodec, W.io, SyncIo.Writes]

end IndraDB
