import Verif.Model.RocksOpen
import Verif.Proofs.RocksStore
/-
Opening a RocksDB database.
-/
set_option linter.unusedSimpArgs false
namespace IndraDB

theorem le64_length (n : Nat) : (le64 n).length = 8 := by simp [le64]

theorem leVal_le64 {n : Nat} (h : n < 2 ^ 64) : leVal (le64 n) = n := by
  simp only [le64, leVal]
  simp
  omega

theorem decodeIdent_append (i : Identifier) (r : Bytes) :
    decodeIdent (le64 i.bytes.length ++ i.bytes ++ r) = .ok (i, r) := by
  have hl : i.bytes.length < 2 ^ 64 := by have := i.len; omega
  have h1 : ((le64 i.bytes.length ++ i.bytes ++ r).take 8) = le64 i.bytes.length := by
    rw [List.append_assoc, List.take_append_of_le_length (by simp [le64_length]),
      List.take_of_length_le (by simp [le64_length])]
  have h2 : ((le64 i.bytes.length ++ i.bytes ++ r).drop 8) = i.bytes ++ r := by
    rw [List.append_assoc]
    have := List.drop_left (l₁ := le64 i.bytes.length) (l₂ := i.bytes ++ r)
    rw [le64_length] at this; exact this
  unfold decodeIdent
  rw [if_neg (by simp [le64_length])]
  simp only [h1, h2, leVal_le64 hl]
  rw [if_neg (by simp)]
  have h3 : (i.bytes ++ r).take i.bytes.length = i.bytes := List.take_left
  have h4 : (i.bytes ++ r).drop i.bytes.length = r := List.drop_left
  rw [dif_pos (by rw [h3]; exact i.len)]
  congr 1
  refine Prod.ext ?_ h4
  cases i
  simp only [Identifier.mk.injEq]
  exact h3

theorem decodeIdentList_append (l : List Identifier) (r : Bytes) :
    decodeIdentList l.length (l.flatMap (fun i => le64 i.bytes.length ++ i.bytes) ++ r) = .ok l := by
  induction l with
  | nil => rfl
  | cons i l ih =>
    simp only [List.flatMap_cons, List.length_cons, decodeIdentList]
    rw [show (le64 i.bytes.length ++ i.bytes) ++ l.flatMap (fun i => le64 i.bytes.length ++ i.bytes) ++ r =
      le64 i.bytes.length ++ i.bytes ++ (l.flatMap (fun i => le64 i.bytes.length ++ i.bytes) ++ r) by simp]
    rw [decodeIdent_append]
    simp only [ih]

theorem contains_identSet (l : List Identifier) (n : Identifier) : (identSet l).contains n = true ↔ n ∈ l := by
  suffices h : ∀ s : SSet Identifier, (l.foldl SSet.add s).contains n = true ↔ n ∈ l ∨ s.contains n = true by
    rw [identSet, h]; simp
  induction l with
  | nil => simp
  | cons a r ih =>
    intro s
    rw [List.foldl_cons, ih, SSet.contains_add]
    by_cases h : n = a
    · simp [h]
    · have h' : ¬ a = n := fun e => h e.symm
      simp [h, h']

/-- What was serialized is read back. -/
theorem decodeIdents_encode {l : List Identifier} {ix : SSet Identifier} (h : l.Perm ix.elems) (hl : l.length < 2 ^ 64) :
    decodeIdents (encodeIdents l) = .ok ix := by
  have h1 : ((encodeIdents l).take 8) = le64 l.length := by
    rw [encodeIdents, List.take_append_of_le_length (by simp [le64_length]), List.take_of_length_le (by simp [le64_length])]
  have h2 : ((encodeIdents l).drop 8) = l.flatMap (fun i => le64 i.bytes.length ++ i.bytes) ++ [] := by
    have := List.drop_left (l₁ := le64 l.length) (l₂ := l.flatMap (fun i => le64 i.bytes.length ++ i.bytes))
    rw [le64_length] at this
    rw [List.append_nil]; exact this
  unfold decodeIdents
  rw [if_neg (by simp [encodeIdents, le64_length]), h1, h2, leVal_le64 hl, decodeIdentList_append]
  simp only [Except.map]
  congr 1
  refine SSet.ext_contains (fun k => ?_)
  rw [Bool.eq_iff_iff, contains_identSet, h.mem_iff, SSet.mem_elems]

namespace Rocks
variable {X : Cfg}

theorem getIndexed_none {s : Rocks} (h : (s.kv .metadata).get metaKey = none) : (getIndexed.run s).2 = .ok SMap.empty := by
  unfold getIndexed
  rw [Prog.run_bind_ok (Prog.run_getCf _ _ _), h]
  rfl

theorem getIndexed_some {s : Rocks} {b : Bytes} (h : (s.kv .metadata).get metaKey = some b) :
    (getIndexed.run s).2 = decodeIdents b := by
  unfold getIndexed
  rw [Prog.run_bind_ok (Prog.run_getCf _ _ _), h]
  simp only [Prog.run_lift]

/-- Opening gives back the state. -/
theorem load_full {s : Rocks} (h : MetaOk s) (hl : s.indexed.elems.length < 2 ^ 64) : load (Dir.full s.kv) = .ok s := by
  have h1 : (getIndexed.run ⟨s.kv, SMap.empty⟩).2 = .ok s.indexed := by
    rcases h with ⟨h, h2⟩ | ⟨l, h2, h⟩
    · rw [getIndexed_none (s := ⟨s.kv, SMap.empty⟩) h, h2]
    · rw [getIndexed_some (s := ⟨s.kv, SMap.empty⟩) h]
      exact decodeIdents_encode h2 (h2.length_eq ▸ hl)
  simp only [load, Dir.full, h1]

theorem newDb_full (kv : KV) : newDb (Dir.full kv) = ([Dir.full kv], load (Dir.full kv)) := rfl

end Rocks
end IndraDB
