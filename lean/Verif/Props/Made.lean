import Verif.Proofs.Made
import Verif.Proofs.MemoryStore
import Verif.Proofs.RocksStore
import Verif.Props.JsonFloat
import Verif.Props.Cli
import Verif.Props.Witness
import Verif.Props.RocksWitness
/-
C97: nothing is in a database that was not put in, and counts are bounded by what was put in.
-/
set_option linter.unusedSimpArgs false
namespace IndraDB

variable {letter : Char → Bool} {F : Floats}

/-- A datastore in memory that replies was not made unusable. -/
theorem memStore_answers (K : HashEq) (b : Build) (env) (op : Op) (s : (memStore K b).State) (r : Reply)
    (h : ((memStore K b).step env op s).2 = .ok r) :
    (memStore K b).alive s = true ∧ (memStore K b).alive ((memStore K b).step env op s).1 = true := by
  have h' : (MemDb.step K b env op s).2 = .ok r := h
  show (!s.poisoned) = true ∧ (!(MemDb.step K b env op s).1.poisoned) = true
  cases hp : s.poisoned with
  | true => simp [MemDb.step, hp] at h'
  | false =>
    obtain ⟨_, h2, h3⟩ := memStep_eq (K := K) (b := b) hp env op
    refine ⟨rfl, ?_⟩
    cases hq : (MemDb.step K b env op s).1.poisoned with
    | false => rfl
    | true => rw [h2, h3.1 hq] at h'; cases h'

/-- C97 for the memory datastore, in debug and release builds, whatever the hash maps do. -/
theorem C97_memory (K : HashEq) (b : Build) : (memStore K b).OnlyMade :=
  (memConforms K b).onlyMade Sem.intended_makes ⟨(fun v h => nomatch h), (fun e h => nomatch h)⟩
    (fun env op s r h => (memStore_answers K b env op s r h).1)

/-- C97 for the RocksDB datastore. -/
theorem C97_rocks (X : Cfg) : (rocksStore X).OnlyMade :=
  (Rocks.conforms X).onlyMade (Sem.rocks_makes X) ⟨(fun v h => nomatch h), (fun e h => nomatch h)⟩ (fun _ _ _ _ _ => rfl)

/-- The hypothesis about counts is only about commands that count. -/
theorem Store.countsSmall (S : Store) (ht : S.Typed) (hg : S.Reading) : ∀ (cmds : List (S.Env × Uuid × Command)) (s : S.State),
    (∀ p ∈ cmds, p.2.2 ≠ .countVertex ∧ p.2.2 ≠ .countEdge) → S.CountsSmall letter F cmds s
  | [], _, _ => trivial
  | (env, g, c) :: r, s, h => by
    refine ⟨?_, fun s' _ _ => S.countsSmall ht hg r s' (fun p hp => h p (List.mem_cons_of_mem _ hp))⟩
    intro op x hop hx
    obtain ⟨n1, n2⟩ := h _ List.mem_cons_self
    have hty := ht env op s x hx
    cases x with
    | outputs l =>
      cases op <;> simp only [Reply.IsFor] at hty
      obtain ⟨l', p, e, hp, hrep⟩ := get_printed letter (serdeText F) UuidText.parseStr S hg g ((means_iff g c _).1 hop) env s _ hx
      cases e
      intro n hn
      exfalso
      unfold reported at hrep
      split at hrep
      · rename_i e; cases e
      · rename_i e; cases e
      · rename_i e; cases e; simp at hn
      · rename_i e; cases e; simp at hn
      · rename_i e
        cases e
        cases hrep
        cases hop <;> simp [printer] at hp <;> simp_all
      · rename_i e; cases e; simp at hn
      · rename_i e; cases e; simp at hn
      · cases hrep
        cases hop <;> simp [printer] at hp <;> simp_all
    | _ => trivial

/-- The hypothesis about counts holds in sessions of fewer than 2^64 runs. -/
theorem Store.countsShort (S : Store) (hF : F.Proper) (ht : S.Typed) (hg : S.Reading)
    (hok : ∀ v, (serdeText F).Faithful v → S.okValue v) (hmade : S.OnlyMade) :
    ∀ (cmds : List (S.Env × Uuid × Command)) (hist : List (S.Env × Op)), S.OkHist hist →
      (∀ x ∈ cmds, x.2.2.Modest letter F x.2.1) →
      (hist.flatMap (·.2.newVertices)).length + cmds.length < 2 ^ 64 → (hist.flatMap (·.2.newEdges)).length + cmds.length < 2 ^ 64 →
      S.CountsSmall letter F cmds (S.run hist S.init)
  | [], _, _, _, _, _ => trivial
  | (env, g, c) :: r, hist, hh, hm, hv, he => by
    have hok' : ∀ op, c.Means letter F g op → op.ValuesOk S.okValue := by
      intro op hop
      refine (denotes_all letter (serdeText F) UuidText.parseStr S g ((means_iff g c op).1 hop) ?_).2.2
      rintro q n v rfl
      have h1 := hm _ List.mem_cons_self q n v hop
      have h2 : (serdeText F).Faithful v := by
        cases hop with
        | setVertexProperty _ _ h => exact h.faithful hF h1.1
        | setEdgeProperty _ _ h => exact h.faithful hF h1.1
      exact ⟨h2, hok v h2, h1.2⟩
    simp only [List.length_cons] at hv he
    refine ⟨?_, ?_⟩
    · intro op x hop hx
      obtain ⟨_, _, m3, m4⟩ := hmade hist hh env
      have hask : ∀ q l, op = .get q → x = .outputs l → S.ask env q (S.run hist S.init) = .ok l := by
        rintro q l rfl rfl
        simp only [Store.ask, hx]
      by_cases hc : c = .countVertex ∨ c = .countEdge
      · cases x with
        | outputs l =>
          rcases hc with rfl | rfl
          · cases hop
            obtain ⟨n, rfl, hn⟩ := m3 l (hask _ _ rfl rfl)
            intro k hk; simp only [List.mem_singleton, Output.count.injEq] at hk; subst hk; omega
          · cases hop
            obtain ⟨n, rfl, hn⟩ := m4 l (hask _ _ rfl rfl)
            intro k hk; simp only [List.mem_singleton, Output.count.injEq] at hk; subst hk; omega
        | _ => trivial
      · exact (S.countsSmall ht hg [(env, g, c)] (S.run hist S.init) (by
          intro p hp; rw [List.mem_singleton.1 hp]; exact not_or.1 hc)).1 op x hop hx
    · intro s' x hout
      have same : S.CountsSmall letter F r (S.run hist S.init) :=
        S.countsShort hF ht hg hok hmade r hist hh (fun x hx => hm x (List.mem_cons_of_mem _ hx)) (by omega) (by omega)
      have next : ∀ op y, c.Means letter F g op → S.step env op (S.run hist S.init) = (s', y) → S.CountsSmall letter F r s' := by
        intro op y hop hs
        have hs' : s' = S.run (hist ++ [(env, op)]) S.init := by
          rw [Store.run_append]; exact (congrArg Prod.fst hs).symm
        rw [hs']
        have := means_newVertices hop
        refine S.countsShort hF ht hg hok hmade r _ ?_ (fun x hx => hm x (List.mem_cons_of_mem _ hx)) ?_ ?_
        · intro p hp
          rcases List.mem_append.1 hp with h | h
          · exact hh p h
          · rw [List.mem_singleton.1 h]; exact hok' op hop
        · simp only [List.flatMap_append, List.length_append, List.flatMap_cons, List.flatMap_nil, List.append_nil]; omega
        · simp only [List.flatMap_append, List.length_append, List.flatMap_cons, List.flatMap_nil, List.append_nil]; omega
      cases hout with
      | ping => exact same
      | refused => exact same
      | done hop hs _ => exact next _ _ hop hs
      | long hop hs _ => exact next _ _ hop hs
      | failed hop hs => exact next _ _ hop hs
      | panicked hop hs => exact next _ _ hop hs
      | lost hop hs => exact next _ _ hop hs

theorem C97_memory_counts (K : HashEq) (b : Build) (hF : F.Proper) (cmds : List ((memStore K b).Env × Uuid × Command))
    (hm : ∀ x ∈ cmds, x.2.2.Modest letter F x.2.1) (hl : cmds.length < 2 ^ 64) :
    (memStore K b).CountsSmall letter F cmds (memStore K b).init :=
  (memStore K b).countsShort hF (memStore_typed K b) (memStore_reading K b) (fun _ _ => trivial) (C97_memory K b) cmds []
    (fun _ h => nomatch h) hm ((Nat.zero_add _).symm ▸ hl) ((Nat.zero_add _).symm ▸ hl)

theorem C97_rocks_counts (X : Cfg) (hX : X.codec = serdeJson utf8Ok F) (hF : F.Proper) (cmds : List ((rocksStore X).Env × Uuid × Command))
    (hm : ∀ x ∈ cmds, x.2.2.Modest letter F x.2.1) (hl : cmds.length < 2 ^ 64) :
    (rocksStore X).CountsSmall letter F cmds (rocksStore X).init :=
  (rocksStore X).countsShort hF (rocksStore_typed X) (rocksStore_reading X) (fun v h => ⟨v, X.stored_faithful hX hF h⟩) (C97_rocks X) cmds []
    (fun _ h => nomatch h) hm ((Nat.zero_add _).symm ▸ hl) ((Nat.zero_add _).symm ▸ hl)

/-- After the example history: two vertices and three edges were asked for, and there are as many. -/
example : (MS .debug).ask HashOrder.sorted (.count .allVertex) ((MS .debug).run W.hist MemDb.new) = .ok [.count 2] ∧
    (W.hist.flatMap (·.2.newVertices)).length = 2 ∧
    (MS .debug).ask HashOrder.sorted (.count .allEdge) ((MS .debug).run W.hist MemDb.new) = .ok [.count 3] ∧
    (W.hist.flatMap (·.2.newEdges)).length = 3 := by decide +kernel

example : (RS .debug).ask IdentOrder.sorted (.count .allVertex) ((RS .debug).run (W.calm W.calls) Rocks.init) = .ok [.count 2] ∧
    ((W.calm W.calls).flatMap (·.2.newVertices)).length = 2 := by decide +kernel

/-- The bound says something: twice the same vertex, once refused. -/
example : (MS .debug).ask HashOrder.sorted (.count .allVertex)
      ((MS .debug).run (W.hist ++ [(.sorted, .createVertex ⟨W.u 1, W.t2⟩)]) MemDb.new) = .ok [.count 2] ∧
    ((W.hist ++ [(HashOrder.sorted, Op.createVertex ⟨W.u 1, W.t2⟩)]).flatMap (·.2.newVertices)).length = 3 := by decide +kernel

example := C97_memory HashEq.byHash .debug W.hist (memStore_ok _) HashOrder.sorted

end IndraDB
