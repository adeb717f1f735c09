import Verif.Model.ReplyChannel
import Verif.Proofs.Proto
import Verif.Props.Memory
import Verif.Props.Rocks
import Verif.Props.MemoryAny
/-
C62: a client that reads slowly, stops reading or goes away never makes the server's task wait, and a client that reads
everything gets exactly the output values, in order.
-/
namespace IndraDB

/-- Nesting of a query: the number of queries inside it. -/
def Query.nesting : Query → Nat
  | .pipe i _ _ _ | .pipeProperty i _ | .pipeWithPropertyPresence i _ _ | .pipeWithPropertyValue i _ _ _ | .incl i | .count i =>
    1 + i.nesting
  | _ => 0

/-- Every level of the query is two levels of the message. -/
theorem PQuery.depth_nesting {letter : Char → Bool} {J : JsonText} {m : PQuery} {q : Query} (h : m.Means letter J q) :
    2 * q.nesting + 1 ≤ m.depth := by
  induction h with
  | allVertex | allEdge => simp [Query.nesting, PQuery.depth]
  | specificVertex _ | rangeVertex _ _ | vertexWithPropertyPresence _ | edgeWithPropertyPresence _
  | vertexWithPropertyValue _ _ | edgeWithPropertyValue _ _ => simp only [Query.nesting, PQuery.depth]; split <;> omega
  | specificEdge _ => simp only [Query.nesting, PQuery.depth]; (repeat' split) <;> omega
  | pipe _ _ ih | pipeProperty _ _ ih | pipeWithPropertyPresence _ _ ih | pipeWithPropertyValue _ _ _ ih | incl _ ih
  | count _ ih => simp only [Query.nesting, PQuery.depth]; omega

theorem vecPop_length {α : Type} {l r : List α} {a : α} (h : vecPop l = some (r, a)) : l.length = r.length + 1 := by
  rcases List.eq_nil_or_concat l with rfl | ⟨m, b, rfl⟩
  · cases h
  · rw [List.concat_eq_append, vecPop_concat] at h
    cases h; simp

theorem runStage_length {inner : Query} {r : Res (List Output)} {stage : Output → Res Output} {l : List Output}
    (h : runStage inner r stage = .ok l) : ∃ m, r = .ok m ∧ l.length ≤ m.length + 1 := by
  unfold runStage at h
  cases r with
  | error f => cases h
  | ok m =>
    refine ⟨m, rfl, ?_⟩
    simp only [bind, Except.bind] at h
    cases hp : vecPop m with
    | none => rw [hp] at h; cases h
    | some p =>
      obtain ⟨m', v⟩ := p
      rw [hp] at h
      have hl := vecPop_length hp
      simp only at h
      cases hs : stage v with
      | error f => rw [hs] at h; cases h
      | ok w =>
        rw [hs] at h
        cases h
        split <;> simp <;> omega

/-- A query produces at most one output value for each of its levels. -/
theorem query_length (R : Reads) : ∀ (q : Query) (out l : List Output), query R q out = .ok l →
    l.length ≤ out.length + 1 + q.nesting := by
  intro q
  induction q with
  | pipe i d n t ih | pipeProperty i n ih | pipeWithPropertyPresence i n e ih | pipeWithPropertyValue i n v e ih =>
    intro out l h
    obtain ⟨m, h1, h2⟩ := runStage_length h
    have := ih _ _ h1
    simp only [Query.nesting]; omega
  | incl i ih =>
    intro out l h
    simp only [query, bind, Except.bind] at h
    cases h1 : query R i out with
    | error f => rw [h1] at h; cases h
    | ok m =>
      rw [h1] at h
      have := ih _ _ h1
      cases hp : vecPop m with
      | none => simp only [hp] at h; cases h
      | some p =>
        have hl := vecPop_length hp
        simp only [hp] at h; cases h
        simp only [Query.nesting]; simp; omega
  | count i ih =>
    intro out l h
    cases i with
    | allVertex => cases h; simp [Query.nesting]
    | allEdge => cases h; simp [Query.nesting]
    | _ =>
      obtain ⟨m, h1, h2⟩ := runStage_length h
      have := ih _ _ h1
      simp only [Query.nesting] at *; omega
  | _ =>
    intro out l h
    simp only [query, bind, Except.bind] at h
    repeat' (split at h)
    all_goals first | (cases h; done) | (cases h; simp [Query.nesting])

/-- A database whose replies to queries have at most one output value for each level of the query. -/
def Store.OutputPerLevel (S : Store) : Prop :=
  ∀ env q s l, (S.step env (.get q) s).2 = .ok (.outputs l) → l.length ≤ 1 + q.nesting

theorem getStream_length (J : JsonText) {r : Res Reply} {n : Nat} (h : ∀ l, r = .ok (.outputs l) → l.length ≤ 1 + n) :
    (getStream J r).length ≤ 1 + n := by
  cases r with
  | error f => cases f <;> simp [getStream]
  | ok v => cases v with
    | outputs l => simpa [getStream] using h l rfl
    | _ => simp [getStream]

namespace ReplyChannel

/-- Nothing is lost, duplicated or reordered, and there are never more messages than there were to send. -/
theorem steps_inv {l : List ReplyItem} {C : ReplyChannel} (h : Steps (start l) C) :
    (C.closed = false → C.got ++ (C.queue ++ C.todo) = l) ∧ (C.closed = true → C.got <+: l ∧ C.queue = []) ∧
    C.got.length + C.queue.length + C.todo.length ≤ l.length := by
  induction h with
  | refl => simp [start]
  | step _ hst ih =>
    obtain ⟨h1, h2, h3⟩ := ih
    cases hst with
    | send x r ht hc hq =>
      have := h1 hc
      rw [ht] at this h3
      refine ⟨fun _ => by simpa using this, fun h => ?_, by simp at h3 ⊢; omega⟩
      rw [show _ = false from hc] at h; cases h
    | sendFailed x r ht hc =>
      rw [ht] at h3
      exact ⟨fun h => (by rw [show _ = true from hc] at h; cases h), fun _ => h2 hc, by simp at h3 ⊢; omega⟩
    | recv x r hq hc =>
      have := h1 hc
      rw [hq] at this h3
      refine ⟨fun _ => by simpa using this, fun h => ?_, by simp at h3 ⊢; omega⟩
      rw [show _ = false from hc] at h; cases h
    | close hc =>
      refine ⟨fun h => (by cases h), fun _ => ⟨⟨_, h1 hc⟩, rfl⟩, by simp; omega⟩

end ReplyChannel

/-- The reply to every request that gets through fits into the channel. -/
theorem reply_fits (S : Store) (hS : S.OutputPerLevel) (letter : Char → Bool) (J : JsonText) (env : S.Env) (m : PQuery)
    (s : S.State) (hm : wireOk m.size m.depth = true) (l : List ReplyItem)
    (h : (S.handle letter J env (.get m) s).2 = .ok (.stream l)) : l.length ≤ 50 := by
  simp only [Store.handle] at h
  cases hq : m.conv letter J with
  | error e => rw [hq] at h; simp [mapConversionResult] at h
  | ok q =>
    rw [hq] at h
    simp only [mapConversionResult, Except.ok.injEq, Response.stream.injEq] at h
    have hd := PQuery.depth_nesting ((PQuery.conv_iff letter J m q).1 hq)
    simp only [wireOk, Bool.and_eq_true, decide_eq_true_eq] at hm
    have := getStream_length J (r := (S.step env (.get q) s).2) (hS env q s)
    rw [h] at this
    omega

/-- C62, for any database with at most one output value per level of a query: whatever message a client sends as a query
(if it gets through), and whatever the client does with the reply, the task that sends it never waits; while the client is
there, it has received a part of the reply from its beginning, and the rest is on its way. -/
theorem Store.reply_never_waits (S : Store) (hS : S.OutputPerLevel) (letter : Char → Bool) (J : JsonText) (env : S.Env)
    (m : PQuery) (s : S.State) (hm : wireOk m.size m.depth = true) (l : List ReplyItem)
    (h : (S.handle letter J env (.get m) s).2 = .ok (.stream l)) (C : ReplyChannel)
    (hC : ReplyChannel.Steps (.start l) C) :
    ¬ C.TaskWaits ∧ (C.todo ≠ [] → ∃ D, ReplyChannel.Step C D ∧ D.todo = C.todo.tail) ∧ C.got <+: l ∧
    (C.closed = false → C.got ++ (C.queue ++ C.todo) = l) := by
  have hl := reply_fits S hS letter J env m s hm l h
  obtain ⟨h1, h2, h3⟩ := ReplyChannel.steps_inv hC
  have hlt : C.queue.length < channelCapacity := by simp only [channelCapacity]; omega
  refine ⟨fun ⟨_, _, h6⟩ => by omega, ?_, ?_, h1⟩
  · intro ht
    cases hto : C.todo with
    | nil => exact absurd hto ht
    | cons x r => cases hc : C.closed with
      | true => exact ⟨_, .sendFailed C x r hto hc, rfl⟩
      | false => exact ⟨_, .send C x r hto hc hlt, rfl⟩
  · cases hc : C.closed with
    | true => exact (h2 hc).1
    | false => exact ⟨_, h1 hc⟩

theorem memory_outputPerLevel (b : Build) : (memStoreAny b).OutputPerLevel := by
  intro env q s l h
  have hg : ∀ R : Reads, getQuery R q = .ok l → l.length ≤ 1 + q.nesting := by
    intro R hR
    have := query_length R q [] l hR
    simpa using this
  simp only [memStoreAny, MemDb.step] at h
  split at h
  · cases h
  · revert h
    simp only [dbStep]
    cases hq : getQuery (Mem.reads env.1 env.2 s.mem) q with
    | ok l' =>
      intro h
      simp [Mem.txn, hq, Except.map] at h
      subst h; exact hg _ hq
    | error f => cases f <;> simp [Mem.txn, hq, Except.map]

theorem rocks_outputPerLevel (X : Cfg) : (rocksStore X).OutputPerLevel := by
  intro env q s l h
  change (getQuery ((Rocks.txn X env).reads s) q).map Reply.outputs = _ at h
  cases hq : getQuery ((Rocks.txn X env).reads s) q with
  | error f => rw [hq] at h; cases h
  | ok l' =>
    rw [hq] at h; cases h
    simpa using query_length _ q [] l hq

/-- C62 on the memory datastore. -/
theorem C62_memory (b : Build) (letter : Char → Bool) (J : JsonText) (env : Finder × HashOrder) (m : PQuery)
    (s : MemDb) (hm : m.size ≤ 4194304 ∧ m.depth ≤ 100) (l : List ReplyItem)
    (h : ((memStoreAny b).handle letter J env (.get m) s).2 = .ok (.stream l)) (C : ReplyChannel)
    (hC : ReplyChannel.Steps (.start l) C) :
    ¬ C.TaskWaits ∧ (C.todo ≠ [] → ∃ D, ReplyChannel.Step C D ∧ D.todo = C.todo.tail) ∧ C.got <+: l ∧
    (C.closed = false → C.got ++ (C.queue ++ C.todo) = l) :=
  Store.reply_never_waits _ (memory_outputPerLevel b) letter J env m s (by simpa [wireOk] using hm) l h C hC

/-- C62 on the RocksDB datastore. -/
theorem C62_rocks (X : Cfg) (letter : Char → Bool) (J : JsonText) (env : IdentOrder) (m : PQuery)
    (s : Rocks) (hm : m.size ≤ 4194304 ∧ m.depth ≤ 100) (l : List ReplyItem)
    (h : ((rocksStore X).handle letter J env (.get m) s).2 = .ok (.stream l)) (C : ReplyChannel)
    (hC : ReplyChannel.Steps (.start l) C) :
    ¬ C.TaskWaits ∧ (C.todo ≠ [] → ∃ D, ReplyChannel.Step C D ∧ D.todo = C.todo.tail) ∧ C.got <+: l ∧
    (C.closed = false → C.got ++ (C.queue ++ C.todo) = l) :=
  Store.reply_never_waits _ (rocks_outputPerLevel X) letter J env m s (by simpa [wireOk] using hm) l h C hC

/-- A query with an include: two output values; the client reads one, and goes away. -/
example (letter : Char → Bool) (J : JsonText) (b : Build) : ∃ l,
    ((memStoreAny b).handle letter J (Finder.byEq, HashOrder.sorted)
      (.get (.pipe (some (.incl (some .allVertex))) 0 10 none)) MemDb.new).2 = .ok (.stream l) ∧ l.length = 2 ∧
    ∃ C, ReplyChannel.Steps (.start l) C ∧ C.got = l.take 1 ∧ C.closed = true ∧ C.todo = [] := by
  refine ⟨[.ok (.vertices []), .ok (.edges [])], rfl, rfl, _,
    (((ReplyChannel.Steps.refl _).step (.send _ _ _ rfl rfl (by decide))).step (.recv _ _ _ rfl rfl)).step (.close _ rfl)
      |>.step (.sendFailed _ _ _ rfl rfl), rfl, rfl, rfl⟩

/-- The bound on the depth is needed: in the channel alone, a task with more than 100 messages does wait. -/
example : ∃ C, ReplyChannel.Steps (.start (List.replicate 101 (.ok .unset))) C ∧ C.TaskWaits := by
  have h : ∀ n, n ≤ 100 → ReplyChannel.Steps (.start (List.replicate 101 (.ok .unset)))
      ⟨List.replicate (101 - n) (.ok .unset), List.replicate n (.ok .unset), [], false⟩ := by
    intro n
    induction n with
    | zero => intro _; exact .refl _
    | succ n ih =>
      intro hn
      have e : 101 - n = (101 - (n + 1)) + 1 := by omega
      have := (ih (by omega)).step (.send _ (.ok .unset) (List.replicate (101 - (n + 1)) (.ok .unset))
        (by rw [e]; rfl) rfl (by simp [channelCapacity]; omega))
      rwa [← List.replicate_succ'] at this
  exact ⟨_, h 100 (by omega), by simp [ReplyChannel.TaskWaits, channelCapacity]⟩

end IndraDB
