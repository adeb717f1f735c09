import Verif.Proofs.Agree
import Verif.Props.Rocks
/-
C28: the two datastores give the same replies.
-/
set_option linter.unusedSimpArgs false
namespace IndraDB
open Rocks

/-- What is true of C28, for all histories of the common fragment and both builds: every reply of the RocksDB datastore is
that of the memory datastore, up to the order of the elements in a listing. The common fragment (`Store.CommonHist`):

* values: a set `V` of JSON values that are read back unchanged, and on which the lookup of hash maps (memory) and the
  64-bit hash (RocksDB) agree on which are equal;
* edge types: a set `T` on which byte order and (length, byte order) agree, for instance types of one length;
* calls: no vertex with the greatest UUID; vertices are deleted with the sources of their inbound edges; bulk insertions
  do not change the type of a vertex, insert edges and properties only to existing endpoints and owners, and do not set the
  same property twice; in release builds, queries do not use property indexes.

Missing: all other histories; see the refutations below and those of C06, C09, C11, C13, C27, C35. -/
theorem C28_partial (K : HashEq) (X : Cfg) (b : Build) (V : Json → Prop) (T : Identifier → Prop) (hT : SameOrder T)
    (hV : ∀ v, V v → X.codec.dec (X.codec.enc v) = some v)
    (hH : ∀ w v, V w → V v → K.same w v = (X.H w.stream == X.H v.stream)) :
    StoresAgree (memStore K b) (rocksStore X)
      (fun hist => (memStore K b).CommonHist b V T (hist.map (fun p => (p.1.1, p.2))) (memStore K b).init) :=
  stores_agree hT hV hH

/-- Types of one length. -/
theorem C28_types (k : Nat) : SameOrder (fun t => t.bytes.length = k) := by
  intro a b ha hb h; omega

/-- Calls with sorted hash iteration, for both. -/
def W.both (l : List Op) : List ((HashOrder × IdentOrder) × Op) := l.map (fun o => ((HashOrder.sorted, IdentOrder.sorted), o))

theorem zip_cast {α β : Type} {R : α → β → Prop} {l l' : List α} {m m' : List β} (h : Zip R l m) (h1 : l = l') (h2 : m = m') :
    Zip R l' m' := h1 ▸ h2 ▸ h

/-- C28 fails whatever the hash, the codec and the build: create two vertices and an edge, delete the target; the memory
datastore has no edges left, and the RocksDB datastore has one. -/
theorem C28_refuted (K : HashEq) (X : Cfg) (b : Build) : ¬ StoresAgree (memStore K b) (rocksStore X) (fun _ => True) := by
  intro h
  have h := h (W.both [.createVertex ⟨W.u 1, W.t⟩, .createVertex ⟨W.u 2, W.t⟩, .createEdge W.e12,
    .delete (.specificVertex [W.u 2]), .get (.count .allEdge)]) trivial
  have h1 : (memStore K b).replies [(HashOrder.sorted, .createVertex ⟨W.u 1, W.t⟩), (HashOrder.sorted, .createVertex ⟨W.u 2, W.t⟩),
      (HashOrder.sorted, .createEdge W.e12), (HashOrder.sorted, .delete (.specificVertex [W.u 2])),
      (HashOrder.sorted, .get (.count .allEdge))] MemDb.new
      = [.ok (.bool true), .ok (.bool true), .ok (.bool true), .ok .unit, .ok (.outputs [.count 0])] := by
    obtain ⟨same, _, _, _⟩ := K; cases b <;> kernel_rfl
  have h2 : (rocksStore X).replies [(IdentOrder.sorted, .createVertex ⟨W.u 1, W.t⟩), (IdentOrder.sorted, .createVertex ⟨W.u 2, W.t⟩),
      (IdentOrder.sorted, .createEdge W.e12), (IdentOrder.sorted, .delete (.specificVertex [W.u 2])),
      (IdentOrder.sorted, .get (.count .allEdge))] Rocks.init
      = [.ok (.bool true), .ok (.bool true), .ok (.bool true), .ok .unit, .ok (.outputs [.count 1])] := by
    obtain ⟨H, c, b⟩ := X; cases b <;> kernel_rfl
  have h4 := zip_cast h h1 h2
  rcases h4 with _ | ⟨_, _ | ⟨_, _ | ⟨_, _ | ⟨_, _ | ⟨h5, _⟩⟩⟩⟩⟩
  rcases h5 with _ | ⟨h6, _⟩
  exact absurd h6 (by simp [Output.Same])

/-- C28 also fails for histories without deletions, because of the order of edges: two edges of types `b` and `aa` leave
the same vertex; with limit 1, the memory datastore gives `aa` and the RocksDB datastore `b`. -/
theorem C28_order_refuted (K : HashEq) (X : Cfg) (b : Build) :
    ¬ StoresAgree (memStore K b) (rocksStore X) (fun hist => ∀ p ∈ hist, ∀ q, p.2 ≠ .delete q) := by
  intro h
  let tb : Identifier := ⟨[98], by decide⟩
  let ta : Identifier := ⟨[97, 97], by decide⟩
  have h := h (W.both [.createVertex ⟨W.u 1, W.t⟩, .createEdge ⟨W.u 1, tb, W.u 1⟩, .createEdge ⟨W.u 1, ta, W.u 1⟩,
    .get (.pipe (.specificVertex [W.u 1]) .outbound 1 none)])
    (List.forall_mem_cons.2 ⟨nofun, List.forall_mem_cons.2 ⟨nofun, List.forall_mem_cons.2 ⟨nofun, List.forall_mem_cons.2 ⟨nofun,
      fun _ h => nomatch h⟩⟩⟩⟩)
  have h1 : (memStore K b).replies [(HashOrder.sorted, .createVertex ⟨W.u 1, W.t⟩),
      (HashOrder.sorted, .createEdge ⟨W.u 1, tb, W.u 1⟩), (HashOrder.sorted, .createEdge ⟨W.u 1, ta, W.u 1⟩),
      (HashOrder.sorted, .get (.pipe (.specificVertex [W.u 1]) .outbound 1 none))] MemDb.new
      = [.ok (.bool true), .ok (.bool true), .ok (.bool true), .ok (.outputs [.edges [⟨W.u 1, ta, W.u 1⟩]])] := by
    obtain ⟨same, _, _, _⟩ := K; cases b <;> kernel_rfl
  have h2 : (rocksStore X).replies [(IdentOrder.sorted, .createVertex ⟨W.u 1, W.t⟩),
      (IdentOrder.sorted, .createEdge ⟨W.u 1, tb, W.u 1⟩), (IdentOrder.sorted, .createEdge ⟨W.u 1, ta, W.u 1⟩),
      (IdentOrder.sorted, .get (.pipe (.specificVertex [W.u 1]) .outbound 1 none))] Rocks.init
      = [.ok (.bool true), .ok (.bool true), .ok (.bool true), .ok (.outputs [.edges [⟨W.u 1, tb, W.u 1⟩]])] := by
    obtain ⟨H, c, b⟩ := X; cases b <;> kernel_rfl
  have h4 := zip_cast h h1 h2
  rcases h4 with _ | ⟨_, _ | ⟨_, _ | ⟨_, _ | ⟨h5, _⟩⟩⟩⟩
  rcases h5 with _ | ⟨h6, _⟩
  have h7 : ([⟨W.u 1, ta, W.u 1⟩] : List Edge).Perm [⟨W.u 1, tb, W.u 1⟩] := h6
  exact absurd (List.perm_singleton.1 h7.symm) (by simp [ta, tb])

/-! A history in the common fragment, with indexes, overwritten values, an index query, a bulk insertion and a deletion. -/

namespace W

def agreeValues : List Json := [n 1, n 3, n 7, n 8]
def agreeTypes : List Identifier := [t, t2]

theorem agree_types : SameOrder (· ∈ agreeTypes) := by
  intro a b ha hb
  simp only [agreeTypes, List.mem_cons, List.not_mem_nil, or_false] at ha hb
  rcases ha with rfl | rfl <;> rcases hb with rfl | rfl <;> decide

def agreeCalls : List Op := calls ++ [.get (.vertexWithPropertyValue p (n 8)),
  .bulkInsert [.vertex ⟨u 3, t⟩, .edge ⟨u 3, t, u 1⟩, .vertexProperty (u 3) p (n 8), .edgeProperty ⟨u 3, t, u 1⟩ q (n 1)],
  .delete (.specificVertex [u 3]), .get (.pipe .allVertex .inbound 2 none), .get (.edgeWithPropertyPresence p)]

end W

open W in
example : ∀ v, v ∈ agreeValues → (W.cfg .debug).codec.dec ((W.cfg .debug).codec.enc v) = some v := by
  decide +kernel

open W in
example : ∀ w, w ∈ agreeValues → ∀ v, v ∈ agreeValues →
    HashEq.byHash.same w v = ((W.cfg .debug).H w.stream == (W.cfg .debug).H v.stream) := by
  decide +kernel

/-- The hypothesis on the history is met. -/
theorem W.agree_common : (MS .debug).CommonHist .debug (· ∈ W.agreeValues) (· ∈ W.agreeTypes)
    ((W.both W.agreeCalls).map (fun p => (p.1.1, p.2))) MemDb.new := by
  have vm : ∀ k, (k = 1 ∨ k = 3 ∨ k = 7 ∨ k = 8) → W.n k ∈ W.agreeValues := by
    rintro k (rfl | rfl | rfl | rfl) <;> simp [W.agreeValues]
  have qc : ∀ q : Query, q.Determined → q.Asks (· ∈ W.agreeValues) → Store.QueryCommon .debug (· ∈ W.agreeValues) q :=
    fun q h1 h2 => ⟨h1, h2, Or.inl rfl⟩
  have t1 : W.t ∈ W.agreeTypes := by simp [W.agreeTypes]
  have t2 : W.t2 ∈ W.agreeTypes := by simp [W.agreeTypes]
  have u1 : W.u 1 ≠ Uuid.max := by decide
  have u2 : W.u 2 ≠ Uuid.max := by decide
  have u3 : W.u 3 ≠ Uuid.max := by decide
  refine ⟨u1, u2, t1, t2, t1, ⟨qc _ trivial trivial, vm 7 (by simp)⟩, trivial,
    ⟨qc _ trivial trivial, vm 1 (by simp)⟩, ⟨qc _ trivial trivial, vm 3 (by simp)⟩, ⟨qc _ trivial trivial, vm 8 (by simp)⟩,
    qc _ trivial (vm 8 (by simp)), ⟨?_, by decide, ?_⟩, ⟨qc _ trivial trivial, ?_⟩, qc _ trivial trivial,
    qc _ trivial trivial, trivial⟩
  · exact List.forall_mem_cons.2 ⟨trivial, List.forall_mem_cons.2 ⟨trivial, List.forall_mem_cons.2 ⟨vm 8 (by simp),
      List.forall_mem_cons.2 ⟨vm 1 (by simp), fun _ h => nomatch h⟩⟩⟩⟩
  · exact ⟨⟨u3, Or.inl (by kernel_rfl)⟩, ⟨by kernel_rfl, t1⟩, Option.isSome_iff_ne_none.1 (by kernel_rfl),
      by show Graph.edge _ _ = true; kernel_rfl, trivial⟩
  · intro vs hvs e he hin
    have h1 : (MS .debug).value HashOrder.sorted (.specificVertex [W.u 3])
        ((MS .debug).run ((W.agreeCalls.take 12).map (fun o => (HashOrder.sorted, o))) MemDb.new)
        = .ok (.vertices [⟨W.u 3, W.t⟩]) := by decide +kernel
    have h2 : Except.ok (Output.vertices vs) = (.ok (.vertices [⟨W.u 3, W.t⟩]) : Res Output) := hvs.symm.trans h1
    cases h2
    have h3 : ∀ x ∈ (MemDb.mem ((MS .debug).run ((W.agreeCalls.take 12).map (fun o => (HashOrder.sorted, o))) MemDb.new)).edges.elems,
        x.inboundId ≠ W.u 3 := by decide +kernel
    exact absurd (List.mem_singleton.1 hin) (h3 e (SSet.mem_elems.2 he))

/-- What both datastores reply to it: 15 replies, among them the listings asked for. -/
example : ((MS .debug).replies ((W.both W.agreeCalls).map (fun p => (p.1.1, p.2))) MemDb.new).drop 10 =
    [.ok (.outputs [.vertices [⟨W.u 1, W.t⟩]]), .ok .unit, .ok .unit, .ok (.outputs [.edges [W.e11, W.e21]]),
      .ok (.outputs [.edges [W.e11, W.e12, W.e21]])] := by decide +kernel

/-- So the theorem applies to it. -/
example := C28_partial HashEq.byHash (W.cfg .debug) .debug (· ∈ W.agreeValues) (· ∈ W.agreeTypes) W.agree_types
  (by decide +kernel)
  (fun w v hw hv => (by decide +kernel : ∀ w ∈ W.agreeValues, ∀ v ∈ W.agreeValues,
    HashEq.byHash.same w v = ((W.cfg .debug).H w.stream == (W.cfg .debug).H v.stream)) w hw v hv)
  (W.both W.agreeCalls) W.agree_common

end IndraDB
