import Verif.Spec.RocksConc
/-
The life of a RocksDB database: opened, used by concurrent calls, the process or the machine dies, opened again, …
-/
namespace IndraDB
open Rocks Rocks.Conc

/-- One run of the server, from opening to its end at an arbitrary moment. -/
structure Session where
  /-- the database when it was opened -/
  start : Rocks
  /-- calls and replies -/
  h : List Ev
  /-- the situation at the end: calls may be under way -/
  conc : Conc
  /-- the number of write batches that survive: all if only the process dies, some if power is lost -/
  k : Nat

/-- `RocksLife X ss s`: starting without a database, after the sessions `ss` opening gives `s`
(`server/src/main.rs:57-62`, `rdb/datastore.rs:374-398`). -/
inductive RocksLife (X : Cfg) : List Session → Rocks → Prop
  | new {s} : (newDb none).2 = .ok s → RocksLife X [] s
  | again {ss s t} {h : List Ev} {S : Conc} {k : Nat} : RocksLife X ss s → Exec X s h S → k ≤ S.log.length →
      (newDb (Dir.full (replay s.kv (S.log.take k)))).2 = .ok t → RocksLife X (ss ++ [⟨s, h, S, k⟩]) t

/-- `P` holds for elements at the same positions, and the lists have the same length. -/
def Matched {α β : Type} (P : α → β → Prop) (l : List α) (m : List β) : Prop :=
  l.length = m.length ∧ ∀ (i : Nat) (x : α) (y : β), l[i]? = some x → m[i]? = some y → P x y

end IndraDB
