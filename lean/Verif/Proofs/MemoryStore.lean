import Verif.Proofs.Store
import Verif.Proofs.MemoryHistory
/-
The memory datastore conforms.
-/
set_option linter.unusedSimpArgs false
namespace IndraDB
open Mem

/-- The memory datastore as a black box. `K`: how hash maps find JSON keys; `b`: debug or release build. -/
def memStore (K : HashEq) (b : Build) : Store where
  State := MemDb
  Env := HashOrder
  init := MemDb.new
  step := fun O op d => MemDb.step K b O op d
  graph := fun d => d.mem.graph
  index := fun _ d => d.mem.index K
  alive := fun d => !d.poisoned
  okValue := fun _ => True

variable {K : HashEq} {b : Build}

theorem memStore_ok (hist : List (HashOrder × Op)) : (memStore K b).OkHist hist := by
  rintro ⟨O, op⟩ _
  cases op <;> try trivial
  intro i _
  cases i <;> trivial

theorem memStore_valuesOk (op : Op) : op.ValuesOk (memStore K b).okValue := by
  cases op <;> try trivial
  intro i _
  cases i <;> trivial

theorem memStore_run (hist : List (HashOrder × Op)) : ∀ d, (memStore K b).run hist d = MemDb.run K b hist d := by
  induction hist with
  | nil => intro d; rfl
  | cons a r ih => intro d; exact ih _

theorem memStore_reach {d : MemDb} (h : (memStore K b).Reach d) : d.poisoned = false ∧ MemDb.Inv K b d := by
  obtain ⟨hist, h, ha, _⟩ := h
  have hd : d = MemDb.run K b hist MemDb.new := h.trans (memStore_run hist _)
  subst hd
  have hp : (MemDb.run K b hist MemDb.new).poisoned = false := by
    have ha' : (!(MemDb.run K b hist MemDb.new).poisoned) = true := ha
    simpa using ha'
  exact ⟨hp, MemDb.inv_reachable hist hp⟩

theorem memStep_eq {d : MemDb} (hp : d.poisoned = false) (O : HashOrder) (op : Op) :
    (MemDb.step K b O op d).1.mem = (dbStep (txn K O b) op d.mem).1 ∧
    (MemDb.step K b O op d).2 = (dbStep (txn K O b) op d.mem).2 ∧
    ((MemDb.step K b O op d).1.poisoned = true ↔ (dbStep (txn K O b) op d.mem).2 = .error .panic) := by
  unfold MemDb.step
  rw [if_neg (by simp [hp])]
  generalize dbStep (txn K O b) op d.mem = u
  obtain ⟨m', r⟩ := u
  cases r with
  | ok a => simp
  | error f => cases f <;> simp

theorem dbStep_quiet (O : HashOrder) (op : Op) (m : Mem) (h : (dbStep (txn K O b) op m).2 = .error .panic) :
    (dbStep (txn K O b) op m).1 = m ∧ StepWith Sem.intended m.graph (eval (reads K O m)) op m.graph (.error .panic) ∨
    ((∃ q, op = .delete q) ∨ (∃ q n x, op = .setProperties q n x) ∨ ∃ l, op = .bulkInsert l) := by
  cases op with
  | sync => simp [dbStep, txn, Upd.map, Except.map] at h
  | createVertex v =>
    obtain ⟨_, h2⟩ := createVertex_eff (K := K) (b := b) v m
    simp [dbStep, txn, Upd.map, h2, Except.map] at h
  | createVertexFromType id t =>
    obtain ⟨_, h2⟩ := createVertex_eff (K := K) (b := b) ⟨id, t⟩ m
    exfalso
    simp only [dbStep, dbCreateVertexFromType, txn] at h
    generalize createVertex ⟨id, t⟩ m = u at h2 h
    obtain ⟨m', res⟩ := u
    simp only at h2
    subst h2
    cases hv : (m.graph.vertex id == none) <;> rw [hv] at h <;> simp [Upd.map, Except.map] at h
  | createEdge e =>
    obtain ⟨_, h2⟩ := createEdge_eff (K := K) (b := b) e m
    simp [dbStep, txn, Upd.map, h2, Except.map] at h
  | get q =>
    left
    refine ⟨rfl, rfl, ?_⟩
    simp only [dbStep, txn, getQuery_eq, map_error_iff] at h
    rw [h]; rfl
  | delete q => right; exact Or.inl ⟨q, rfl⟩
  | setProperties q n x => right; exact Or.inr (Or.inl ⟨q, n, x, rfl⟩)
  | bulkInsert l => right; exact Or.inr (Or.inr ⟨l, rfl⟩)
  | indexProperty n =>
    obtain ⟨h1, _⟩ := indexProperty_eff (O := O) (K := K) (b := b) n m
    simp [dbStep, txn, Upd.map, h1, Except.map] at h

/-- The memory datastore conforms to the intended semantics. -/
def memConforms (K : HashEq) (b : Build) : Conforms (memStore K b) (memConv K) Sem.intended where
  reads := fun O d => reads K O d.mem
  get_eq := by
    intro d hr O q
    obtain ⟨hp, hi⟩ := memStore_reach hr
    exact (memStep_eq hp O (.get q)).2.1
  faithful := fun d hr O => faithful K O d.mem (memStore_reach hr).2.wf.rev
  step := by
    intro d hr O op _
    obtain ⟨hp, hi⟩ := memStore_reach hr
    have he := memStep_eq (K := K) (b := b) hp O op
    show StepWith _ _ _ _ (MemDb.step K b O op d).1.mem.graph (MemDb.step K b O op d).2 ∨ _
    rcases dbStep_spec O op d.mem hi.wf with h | ⟨h, _⟩
    · left; rw [he.1, he.2.1]; exact h.stepWith
    · rcases dbStep_quiet O op d.mem h with ⟨h1, h2⟩ | h2
      · left; rw [he.1, he.2.1, h1, h]; exact h2
      · right; exact ⟨he.2.1.trans h, h2⟩
  step_noWrite := by
    intro d hr O op h
    obtain ⟨hp, hi⟩ := memStore_reach hr
    have he := memStep_eq (K := K) (b := b) hp O op
    show StepWith _ _ _ _ (MemDb.step K b O op d).1.mem.graph (MemDb.step K b O op d).2
    rw [he.1, he.2.1]
    rcases h with ⟨q, rfl, ⟨f, hq⟩ | ⟨⟨inc, v⟩, hq, hk⟩⟩ | ⟨q, n, x, rfl, ⟨f, hq⟩ | ⟨⟨inc, v⟩, hq, hk1, hk2⟩⟩
    · have hl : lastOutput ((txn K O b).reads d.mem) q = .error f := by
        have := lastOutput_eq (reads K O d.mem) q; rw [hq] at this; exact this
      simp only [StepWith, hq, dbStep, dbDelete, hl]; exact ⟨rfl, rfl⟩
    · have hl : lastOutput ((txn K O b).reads d.mem) q = .ok v := by
        have := lastOutput_eq (reads K O d.mem) q; rw [hq] at this; exact this
      cases v <;> simp [Output.kind] at hk
      simp only [StepWith, hq, dbStep, dbDelete, hl]; exact ⟨rfl, rfl⟩
    · have hl : lastOutput ((txn K O b).reads d.mem) q = .error f := by
        have := lastOutput_eq (reads K O d.mem) q; rw [hq] at this; exact this
      simp only [StepWith, hq, dbStep, dbSetProperties, hl]; exact ⟨rfl, rfl⟩
    · have hl : lastOutput ((txn K O b).reads d.mem) q = .ok v := by
        have := lastOutput_eq (reads K O d.mem) q; rw [hq] at this; exact this
      cases v <;> simp [Output.kind] at hk1 hk2 <;>
      · simp only [StepWith, hq, dbStep, dbSetProperties, hl]; exact ⟨rfl, rfl⟩
  sem_index := by
    refine ⟨fun _ _ => rfl, fun _ _ => rfl, ?_⟩
    intro g i
    cases i with
    | vertex v => simp only [Sem.intended, Graph.bulkItem, Graph.createVertex]; split <;> rfl
    | edge v => simp only [Sem.intended, Graph.bulkItem, Graph.createEdge]; split <;> rfl
    | _ => rfl
  alive_back := by
    intro d O op h
    show (!d.poisoned) = true
    cases hp : d.poisoned with
    | false => rfl
    | true =>
      have h' : (!(MemDb.step K b O op d).1.poisoned) = true := h
      rw [MemDb.step_poisoned O op hp] at h'; rw [hp] at h'; simp at h'
  alive_ok := by
    intro d hr O op _ h hpanic
    obtain ⟨hp, _⟩ := memStore_reach hr
    have he := memStep_eq (K := K) (b := b) hp O op
    have h' : (!(MemDb.step K b O op d).1.poisoned) = true := h
    rw [he.2.2.2 (he.2.1.symm.trans hpanic)] at h'
    simp at h'

end IndraDB
