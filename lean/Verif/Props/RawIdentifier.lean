import Verif.Model.RawIdentifier
import Verif.Proofs.Keys
import Verif.Props.Values
/-
C61: identifiers that safe code obtains are valid. False: `Deserialize for Identifier` checks nothing, and the RocksDB
datastore, which relies on at most 255 bytes, then returns other data than was stored.
-/
namespace IndraDB

/-- What the documentation promises of an identifier (`identifiers.rs:10-12`): less than 256 bytes; letters, digits,
dashes and underscores. -/
def RawIdentifier.Valid (letter : Char → Bool) (i : RawIdentifier) : Prop :=
  (strBytes i.s).length ≤ 255 ∧ ∀ c ∈ i.s.toList, c = '-' ∨ c = '_' ∨ letter c = true

/-- Identifiers obtained in any way other than by deserialization are valid. -/
theorem C61_partial (letter : Char → Bool) (m : MakeIdentifier) (i : RawIdentifier)
    (hm : ∀ v, m ≠ .deserialize v) (h : m.run letter = some i) : i.Valid letter := by
  have key : ∀ s, RawIdentifier.new letter s = some i → i.Valid letter := by
    intro s h
    unfold RawIdentifier.new at h
    split at h
    · cases h
    · split at h
      · cases h
      · rename_i h1 h2
        cases h
        simp only [Bool.not_eq_true', Bool.not_eq_false, List.all_eq_true] at h2
        refine ⟨by simpa using h1, fun c hc => ?_⟩
        have := h2 c hc
        simpa [or_assoc] using this
  cases m with
  | new s => exact key s h
  | fromStr s => exact key s h
  | tryFrom s => exact key s h
  | default => cases h; exact ⟨by decide +kernel, by simp⟩
  | deserialize v => exact absurd rfl (hm v)

example : RawIdentifier.Valid Char.isAlphanum ⟨"a_b"⟩ :=
  C61_partial _ (.fromStr "a_b") _ (by simp) (by decide +kernel)

/-- All ways, including deserialization, can produce every valid identifier (other than `default`, which gives one). -/
theorem C61_complete (letter : Char → Bool) (i : RawIdentifier) (h : i.Valid letter) :
    (MakeIdentifier.new i.s).run letter = some i ∧ (MakeIdentifier.fromStr i.s).run letter = some i ∧
    (MakeIdentifier.tryFrom i.s).run letter = some i ∧ (MakeIdentifier.deserialize (.str i.s)).run letter = some i := by
  have key : RawIdentifier.new letter i.s = some i := by
    unfold RawIdentifier.new
    rw [if_neg (by have := h.1; omega), if_neg]
    simp only [Bool.not_eq_true', Bool.not_eq_false, List.all_eq_true]
    intro c hc
    simpa [or_assoc] using h.2 c hc
  exact ⟨key, key, key, rfl⟩

example : (MakeIdentifier.tryFrom "a-b").run Char.isAlphanum = some ⟨"a-b"⟩ :=
  (C61_complete _ ⟨"a-b"⟩ ⟨by decide +kernel, by decide +kernel⟩).2.2.1

/-- The checked constructor of this file is that of `Model/Util.lean`. -/
theorem RawIdentifier.new_eq (letter : Char → Bool) (s : String) :
    (RawIdentifier.new letter s).map RawIdentifier.bytes = (Identifier.new letter s).toOption.map Identifier.bytes := by
  unfold RawIdentifier.new Identifier.new
  split
  · simp [Except.toOption]
  · split <;> simp [Except.toOption, RawIdentifier.bytes]

namespace W

/-- A type of 300 bytes. -/
def longType : RawIdentifier := ⟨String.ofList (List.replicate 300 'a')⟩
/-- A type of 256 bytes. -/
def type256 : RawIdentifier := ⟨String.ofList (List.replicate 256 'a')⟩
/-- A type of 257 bytes that begins with a letter of two bytes. -/
def splitType : RawIdentifier := ⟨String.ofList ('é' :: List.replicate 255 'a')⟩

end W

/-- Refuted: safe code deserializes identifiers that are too long, or that have forbidden characters. -/
theorem C61_refuted :
    (∃ (m : MakeIdentifier) (i : RawIdentifier), m.run asciiAlnum = some i ∧ 255 < (strBytes i.s).length) ∧
    (∃ (m : MakeIdentifier) (i : RawIdentifier), m.run asciiAlnum = some i ∧ ¬ ∀ c ∈ i.s.toList, c = '-' ∨ c = '_' ∨ asciiAlnum c = true) :=
  ⟨⟨.deserialize (.str W.longType.s), W.longType, rfl, by decide +kernel⟩,
   ⟨.deserialize (.str "$ {"), ⟨"$ {"⟩, rfl, by decide +kernel⟩⟩

namespace Rocks

theorem readIdentifier_raw (t : RawIdentifier) (r : Bytes) :
    ∃ i : Identifier, i.bytes = t.bytes.take (t.bytes.length % 256) ∧
      readIdentifier (rawIdentBytes t ++ r) = .ok (i, t.bytes.drop (t.bytes.length % 256) ++ r) := by
  have hle : t.bytes.length % 256 ≤ t.bytes.length := Nat.mod_le _ _
  have hn : (UInt8.ofNat t.bytes.length).toNat = t.bytes.length % 256 := by simp [UInt8.toNat_ofNat']
  have hlen : (t.bytes.take (t.bytes.length % 256)).length ≤ 255 := by
    rw [List.length_take]; have := Nat.mod_lt t.bytes.length (show 0 < 256 by omega); omega
  refine ⟨⟨_, hlen⟩, rfl, ?_⟩
  simp only [rawIdentBytes, List.cons_append, readIdentifier, hn, readExact]
  rw [if_neg (by rw [List.length_append]; omega)]
  simp only [List.take_append_of_le_length hle, List.drop_append_of_le_length hle, hlen, dite_true]

end Rocks

/-- What a RocksDB database does with a vertex whose type is an arbitrary string: the vertex is created, and is read back
with the first `length % 256` bytes of the type. It is read back as it was put in exactly if the type has at most 255
bytes. For every build, hash function, codec, state of the database and identifier. -/
theorem C61_rocks_vertex (X : Cfg) (O : IdentOrder) (st : Rocks) (id : Uuid) (t : RawIdentifier)
    (hnew : (st.kv .vertices).get id.bytes = none) :
    ((Rocks.createVertexRaw X id t).run st).2 = .ok true ∧
    (∃ t' : Identifier, t'.bytes = t.bytes.take (t.bytes.length % 256) ∧
      (Rocks.step X O (.get (.specificVertex [id])) ((Rocks.createVertexRaw X id t).run st).1).2
        = .ok (.outputs [.vertices [⟨id, t'⟩]])) ∧
    ((∃ t' : Identifier, t'.bytes = t.bytes ∧
      (Rocks.step X O (.get (.specificVertex [id])) ((Rocks.createVertexRaw X id t).run st).1).2
        = .ok (.outputs [.vertices [⟨id, t'⟩]])) ↔ t.bytes.length ≤ 255) := by
  have hk : Rocks.vertexKey X id = id.bytes := by simp [Rocks.vertexKey, build]
  have hrun : (Rocks.createVertexRaw X id t).run st
      = ({ st with kv := st.kv.write [.put .vertices id.bytes (Rocks.rawIdentBytes t)] }, .ok true) := by
    simp only [Rocks.createVertexRaw, Rocks.vertexExists, hk, Prog.getCf, Prog.writeBatch, bind, Prog.bind, Prog.run, pure,
      hnew, Option.isSome_none, Bool.false_eq_true, if_false]
  obtain ⟨t', h1, h2⟩ := Rocks.readIdentifier_raw t []
  rw [List.append_nil] at h2
  have hget : (Rocks.step X O (.get (.specificVertex [id])) ((Rocks.createVertexRaw X id t).run st).1).2
        = .ok (.outputs [.vertices [⟨id, t'⟩]]) := by
    rw [hrun]
    have hg : ((st.kv.write [.put .vertices id.bytes (Rocks.rawIdentBytes t)]) .vertices).get id.bytes
        = some (Rocks.rawIdentBytes t) := by
      simp [KV.write, KV.apply, KV.set]
    simp only [Rocks.step, dbStep, getQuery, query, Rocks.txn, Rocks.reads, Rocks.lookupItems, Prog.eval]
    simp [Rocks.vertexGet, hk, Prog.getCf, Prog.filterMapItems, bind, Prog.bind, Prog.run, pure, hg, h2, Prog.lift]
    rfl
  refine ⟨by rw [hrun], ⟨t', h1, hget⟩, ?_⟩
  constructor
  · rintro ⟨t'', h3, h4⟩
    rw [← h3]; exact t''.len
  · intro h
    exact ⟨t', by rw [h1, Nat.mod_eq_of_lt (by omega), List.take_length], hget⟩

/-- The condition of `C61_rocks_vertex` is met by the empty database. -/
example : (Rocks.init.kv .vertices).get (W.u 1).bytes = none := rfl

/-- With a type of at most 255 bytes, whatever its characters, the calls are those of the main model, so that all other
theorems apply. -/
theorem C61_rocks_short_partial (X : Cfg) (t : RawIdentifier) (h : t.bytes.length ≤ 255) (id a b : Uuid) :
    Rocks.createVertexRaw X id t = Rocks.createVertex X ⟨id, ⟨t.bytes, h⟩⟩ ∧
    Rocks.createEdgeRaw X a t b = Rocks.createEdge X ⟨a, ⟨t.bytes, h⟩, b⟩ := by
  have e : ∀ a b : Uuid, Rocks.edgeKeyRaw a t b = Rocks.edgeKey X ⟨a, ⟨t.bytes, h⟩, b⟩ := by
    intro a b
    simp [Rocks.edgeKeyRaw, Rocks.edgeKey, build, Component.bytes, Rocks.rawIdentBytes]
  constructor
  · simp [Rocks.createVertexRaw, Rocks.createVertex, Rocks.vertexCreate, build, Component.bytes, Rocks.rawIdentBytes]
  · simp only [Rocks.createEdgeRaw, Rocks.edgeSetRaw, e]
    have hs : (do
        let d ← Prog.getCf .edgeRanges (Rocks.edgeKey X ⟨a, ⟨t.bytes, h⟩, b⟩)
        let d : Batch := if d.isSome then
            [.delete .edgeRanges (Rocks.edgeKey X ⟨a, ⟨t.bytes, h⟩, b⟩),
              .delete .reversedEdgeRanges (Rocks.edgeKey X ⟨b, ⟨t.bytes, h⟩, a⟩)]
          else []
        return d ++ [.put .edgeRanges (Rocks.edgeKey X ⟨a, ⟨t.bytes, h⟩, b⟩) [],
          .put .reversedEdgeRanges (Rocks.edgeKey X ⟨b, ⟨t.bytes, h⟩, a⟩) []] : Prog Batch)
        = Rocks.edgeSet X ⟨a, ⟨t.bytes, h⟩, b⟩ := by
      simp [Rocks.edgeSet, Rocks.edgeContains, Rocks.edgeRangeSet, Rocks.edgeRangeDelete, Edge.reversed, Prog.getCf, bind,
        Prog.bind, pure]
    rw [hs]
    rfl

/-- a type with a space -/
example (X : Cfg) : Rocks.createVertexRaw X (W.u 1) ⟨"a b"⟩ = Rocks.createVertex X ⟨W.u 1, ⟨[97, 32, 98], by decide⟩⟩ :=
  (C61_rocks_short_partial X ⟨"a b"⟩ (by decide +kernel) (W.u 1) (W.u 1) (W.u 2)).1

/-- Refuted on RocksDB: a vertex put in with a deserialized type is returned with another type. -/
theorem C61_rocks_vertex_refuted (X : Cfg) (O : IdentOrder) :
    ∃ t : RawIdentifier, (MakeIdentifier.deserialize (.str t.s)).run asciiAlnum = some t ∧
      ((Rocks.createVertexRaw X (W.u 1) t).run Rocks.init).2 = .ok true ∧
      ∃ t' : Identifier, t'.bytes ≠ t.bytes ∧
        (Rocks.step X O (.get (.specificVertex [W.u 1])) ((Rocks.createVertexRaw X (W.u 1) t).run Rocks.init).1).2
          = .ok (.outputs [.vertices [⟨W.u 1, t'⟩]]) := by
  obtain ⟨h1, ⟨t', h2, h3⟩, _⟩ := C61_rocks_vertex X O Rocks.init (W.u 1) W.longType rfl
  exact ⟨W.longType, rfl, h1, t', by rw [h2]; decide +kernel, h3⟩

/-- Refuted on RocksDB: `from_utf8_unchecked` (`util.rs:110`) is given bytes that are not UTF-8, from safe code only; the
result is a `String` that is not one. -/
theorem C61_rocks_utf8_refuted (X : Cfg) (O : IdentOrder) :
    ∃ t : RawIdentifier, (MakeIdentifier.deserialize (.str t.s)).run asciiAlnum = some t ∧
      ∃ t' : Identifier, (¬ ∃ s : String, strBytes s = t'.bytes) ∧
        (Rocks.step X O (.get (.specificVertex [W.u 1])) ((Rocks.createVertexRaw X (W.u 1) t).run Rocks.init).1).2
          = .ok (.outputs [.vertices [⟨W.u 1, t'⟩]]) := by
  obtain ⟨h1, ⟨t', h2, h3⟩, _⟩ := C61_rocks_vertex X O Rocks.init (W.u 1) W.splitType rfl
  refine ⟨W.splitType, rfl, t', ?_, h3⟩
  rintro ⟨s, hs⟩
  have hb : t'.bytes = [0xC3] := by rw [h2]; decide +kernel
  have hv : s.toUTF8 = ByteArray.mk #[0xC3] := by
    apply ByteArray.ext
    apply Array.toList_inj.1
    exact hs.trans hb
  have hu : ByteArray.IsValidUTF8 s.toUTF8 := s.isValidUTF8
  rw [hv] at hu
  exact absurd hu (by decide)

/-- Two vertices and an edge between them whose type was deserialized. -/
def W.rawEdge : Rocks :=
  ((Rocks.createEdgeRaw (W.cfg .release) (W.u 1) W.type256 (W.u 2)).run
    (((Rocks.createVertexRaw (W.cfg .release) (W.u 2) ⟨"t"⟩).run
      ((Rocks.createVertexRaw (W.cfg .release) (W.u 1) ⟨"t"⟩).run Rocks.init).1).1)).1

/-- Refuted on RocksDB: an edge put in between two existing vertices is returned with another type, and ends at a vertex
that does not exist. -/
theorem C61_rocks_edge_refuted :
    ((Rocks.createEdgeRaw (W.cfg .release) (W.u 1) W.type256 (W.u 2)).run
      (((Rocks.createVertexRaw (W.cfg .release) (W.u 2) ⟨"t"⟩).run
        ((Rocks.createVertexRaw (W.cfg .release) (W.u 1) ⟨"t"⟩).run Rocks.init).1).1)).2 = .ok true ∧
    ∃ e : Edge, e.t.bytes = [] ∧ e.inboundId ≠ W.u 1 ∧ e.inboundId ≠ W.u 2 ∧
      (Rocks.step (W.cfg .release) .sorted (.get .allEdge) W.rawEdge).2 = .ok (.outputs [.edges [e]]) ∧
      (Rocks.step (W.cfg .release) .sorted (.get (.specificVertex [e.inboundId])) W.rawEdge).2
        = .ok (.outputs [.vertices []]) := by
  refine ⟨by kernel_rfl, ⟨W.u 1, Identifier.empty, ⟨List.replicate 16 97, rfl⟩⟩, rfl, by decide, by decide, ?_, ?_⟩
  · kernel_rfl
  · kernel_rfl

end IndraDB
