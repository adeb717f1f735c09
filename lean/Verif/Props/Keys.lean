import Verif.Props.RocksWitness
/-
C36: the byte keys of the RocksDB datastore.
-/
namespace IndraDB
open Rocks

variable (X : Cfg)

/-- C36, injectivity: two things have the same key only if they are the same (index entries: up to the value hash). -/
theorem C36_keys_injective :
    (∀ i j : Uuid, vertexKey X i = vertexKey X j → i = j) ∧
    (∀ e f : Edge, edgeKey X e = edgeKey X f → e = f) ∧
    (∀ i j n m, vpKey X i n = vpKey X j m → i = j ∧ n = m) ∧
    (∀ e f n m, epKey X e n = epKey X f m → e = f ∧ n = m) ∧
    (∀ n m v w i j, vpvKey X n v i = vpvKey X m w j ↔ n = m ∧ X.H v.stream = X.H w.stream ∧ i = j) ∧
    (∀ n m v w e f, epvKey X n v e = epvKey X m w f ↔ n = m ∧ X.H v.stream = X.H w.stream ∧ e = f) := by
  refine ⟨fun i j h => vertexKey_inj.1 h, fun e f h => edgeKey_inj.1 h, fun i j n m h => vpKey_inj.1 h,
    fun e f n m h => epKey_inj.1 h, ?_, ?_⟩
  · intro n m v w i j; rw [vpvKey_eq, vpvKey_eq]; exact vhKey_inj
  · intro n m v w e f; rw [epvKey_eq, epvKey_eq]; exact ehKey_inj

/-- the edge `1 -t-> 2` and its reverse have different keys, and so do its property under two names -/
example : edgeKey (W.cfg .debug) W.e12 ≠ edgeKey (W.cfg .debug) W.e21 ∧
    epKey (W.cfg .debug) W.e12 W.p ≠ epKey (W.cfg .debug) W.e12 W.q :=
  ⟨fun h => absurd ((C36_keys_injective (W.cfg .debug)).2.1 _ _ h) (by decide +kernel),
   fun h => absurd ((C36_keys_injective (W.cfg .debug)).2.2.2.1 _ _ _ _ h).2 (by decide +kernel)⟩

/-- C36, scans: reading a table from a prefix while the prefix matches gives exactly the entries whose key starts with
the prefix, in key order; and a key starts with the prefix of an owner exactly if it belongs to that owner. -/
theorem C36_prefix_scans :
    (∀ (m : SMap Bytes Bytes) (p : Bytes), takeWithPrefix ((m.rangeFrom p).map .ok) p =
      (m.toList.filter (fun e => p.isPrefixOf e.1)).map .ok) ∧
    (∀ i j n, (build X.H [.uuid i]).isPrefixOf (vpKey X j n) = true ↔ i = j) ∧
    (∀ i (e : Edge), (build X.H [.uuid i]).isPrefixOf (edgeKey X e) = true ↔ i = e.outboundId) ∧
    (∀ (e f : Edge) n, (build X.H [.uuid e.outboundId, .identifier e.t, .uuid e.inboundId]).isPrefixOf (epKey X f n) = true
      ↔ e = f) ∧
    (∀ n m v i, (build X.H [.identifier n]).isPrefixOf (vpvKey X m v i) = true ↔ n = m) ∧
    (∀ n m v w i, (build X.H [.identifier n, .json v]).isPrefixOf (vpvKey X m w i) = true ↔
      n = m ∧ X.H v.stream = X.H w.stream) ∧
    (∀ n m v e, (build X.H [.identifier n]).isPrefixOf (epvKey X m v e) = true ↔ n = m) ∧
    (∀ n m v w e, (build X.H [.identifier n, .json v]).isPrefixOf (epvKey X m w e) = true ↔
      n = m ∧ X.H v.stream = X.H w.stream) := by
  refine ⟨takeWithPrefix_eq, ?_, ?_, ?_, ?_, ?_, ?_, ?_⟩
  · intro i j n
    rw [vpKey_eq, show build X.H [.uuid i] = i.bytes from vertexKey_eq (X := X) i]; exact uuid_prefix
  · intro i e
    rw [edgeKey_eq, show build X.H [.uuid i] = i.bytes from vertexKey_eq (X := X) i]; exact uuid_prefix
  · intro e f n
    rw [epKey_eq]; exact edge_prefix
  · intro n m v i
    rw [vpvKey_eq, show build X.H [.identifier n] = identBytes n by simp [build_cons]]; exact ident_prefix
  · intro n m v w i
    rw [vpvKey_eq, show build X.H [.identifier n, .json v] = identBytes n ++ be64 (X.H v.stream) by simp [build_cons]]
    exact hash_prefix
  · intro n m v e
    rw [epvKey_eq, show build X.H [.identifier n] = identBytes n by simp [build_cons]]; exact ident_prefix
  · intro n m v w e
    rw [epvKey_eq, show build X.H [.identifier n, .json v] = identBytes n ++ be64 (X.H v.stream) by simp [build_cons]]
    exact hash_prefix

/-- the properties of vertex 1, and not those of vertex 2, are found under the prefix of vertex 1 -/
example : (build (W.cfg .debug).H [.uuid (W.u 1)]).isPrefixOf (vpKey (W.cfg .debug) (W.u 1) W.p) = true ∧
    ¬ (build (W.cfg .debug).H [.uuid (W.u 1)]).isPrefixOf (vpKey (W.cfg .debug) (W.u 2) W.p) = true :=
  ⟨((C36_prefix_scans (W.cfg .debug)).2.1 _ _ _).2 rfl,
   fun h => absurd (((C36_prefix_scans (W.cfg .debug)).2.1 _ _ _).1 h) (by decide +kernel)⟩

/-- C36, decoding: reading back an entry of each table gives what was encoded (in debug builds, without tripping an
assertion). -/
theorem C36_decode :
    (∀ v : Vertex, vertexItem X (vertexKey X v.id, build X.H [.identifier v.t]) = .ok v) ∧
    (∀ (e : Edge) b, edgeItem (edgeKey X e, b) = .ok e) ∧
    (∀ i n v, X.codec.dec (X.codec.enc v) = some v → vpItem X i (vpKey X i n, X.codec.enc v) = .ok (i, n, v)) ∧
    (∀ e n v, X.codec.dec (X.codec.enc v) = some v → epItem X e (epKey X e n, X.codec.enc v) = .ok (e, n, v)) ∧
    (∀ n v i b, vpvItem (vpvKey X n v i, b) = .ok i) ∧
    (∀ n v e b, epvItem (epvKey X n v e, b) = .ok e) := by
  refine ⟨?_, edgeItem_ok, fun i n v h => vpItem_ok i n _ v h, fun e n v h => epItem_ok e n _ v h, ?_, ?_⟩
  · intro v
    rw [show build X.H [.identifier v.t] = identBytes v.t by simp [build_cons]]
    exact vertexItem_ok v.id v.t
  · intro n v i b; rw [vpvKey_eq]; exact vpvItem_ok n _ i b
  · intro n v e b; rw [epvKey_eq]; exact epvItem_ok n _ e b

/-- a key with all kinds of components -/
example : epvKey (W.cfg .debug) W.p W.j1 W.e12 = [1, 112] ++ be64 (Sip.hash W.j1.stream) ++ (W.u 1).bytes ++ [1, 116] ++
    (W.u 2).bytes := by decide +kernel

end IndraDB
