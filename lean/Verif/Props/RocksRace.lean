import Verif.Props.RocksConc
/-
C51: indexes under concurrent calls.
-/
set_option linter.unusedSimpArgs false
namespace IndraDB
open Rocks Rocks.Conc LockConc

/-- The batch the program writes if it is the only one to do anything until then, if there is no locking for writing. -/
def Prog.pending {α : Type} : Prog α → Rocks → Option Batch
  | .done _, _ => none
  | .get cf k n, s => (n ((s.kv cf).get k)).pending s
  | .scan cf lo n, s => (n (((s.kv cf).rangeFrom lo).map .ok)).pending s
  | .write b _, _ => some b
  | .readLock _ n, s => (n s.indexed).pending s
  | .writeLock _, _ => none
  | .setIndexed _ _, _ => none

namespace Rocks.Conc
variable {X : Cfg}

theorem setAt_twice {α : Type} (f : Nat → α) (c : Nat) (a b : α) : setAt (setAt f c a) c b = setAt f c b := by
  funext i
  by_cases h : i = c
  · subst h; rw [setAt_self, setAt_self]
  · rw [setAt_ne _ _ h, setAt_ne _ _ h, setAt_ne _ _ h]

/-- A call runs up to its write, acquiring read locks. -/
theorem Exec.toWrite {s : Rocks} {h : List Ev} {b : Batch} (p : Prog Reply) : ∀ {S : Conc} {c : Nat}, Exec X s h S →
    S.calls c = .running p → S.writer = none → p.pending S.db = some b →
    ∃ n R, Exec X s h { S with readers := R, calls := setAt S.calls c (.running (.write b n)) } := by
  have fin : ∀ {S S' : Conc} {c : Nat} {q : Prog Reply} {R : List Nat}, Conc.Step X S [] S' → Exec X s h S →
      S' = { S with readers := R, calls := setAt S.calls c (.running q) } → S.writer = none → q.pending S.db = some b →
      (∀ {S : Conc} {c : Nat}, Exec X s h S → S.calls c = .running q → S.writer = none → q.pending S.db = some b →
        ∃ n R, Exec X s h { S with readers := R, calls := setAt S.calls c (.running (.write b n)) }) →
      ∃ n R, Exec X s h { S with readers := R, calls := setAt S.calls c (.running (.write b n)) } := by
    rintro S S' c q R hs e rfl hw hp ih
    have e' := e.snoc hs
    rw [List.append_nil] at e'
    obtain ⟨n, R', hn⟩ := ih (S := { S with readers := R, calls := setAt S.calls c (.running q) }) (c := c) e'
      (setAt_self _ _ _) hw hp
    refine ⟨n, R', ?_⟩
    simp only [setAt_twice] at hn
    exact hn
  induction p with
  | done r => intro S c e hc hw hp; cases hp
  | get cf k n ih =>
    intro S c e hc hw hp
    exact fin (Step.get S c cf k n hc) e rfl hw hp (ih _)
  | scan cf k n ih =>
    intro S c e hc hw hp
    exact fin (Step.scan S c cf k n hc) e rfl hw hp (ih _)
  | readLock held n ih =>
    intro S c e hc hw hp
    exact fin (Step.readLock S c held n hc hw) e rfl hw hp (ih _)
  | writeLock n ih => intro S c e hc hw hp; cases hp
  | setIndexed ix n ih => intro S c e hc hw hp; cases hp
  | write b' n ih =>
    intro S c e hc hw hp
    cases hp
    refine ⟨n, S.readers, ?_⟩
    have : setAt S.calls c (.running (.write b n)) = S.calls := by
      funext i
      by_cases h : i = c
      · subst h; rw [setAt_self, hc]
      · rw [setAt_ne _ _ h]
    rw [this]; exact e

/-- A call that is done drops its read lock and returns. -/
theorem Exec.toRet {s : Rocks} {h : List Ev} {S : Conc} {c : Nat} {r : Res Reply} (e : Exec X s h S)
    (hc : S.calls c = .running (.done r)) (hw : S.writer = none) :
    ∃ R, Exec X s (h ++ [.ret c r]) { S with readers := R, calls := setAt S.calls c .finished } := by
  by_cases hm : c ∈ S.readers
  · have e' := e.snoc (.unlockRead S c r hc hm)
    rw [List.append_nil] at e'
    exact ⟨_, e'.snoc (.ret _ c r hc (by simp [hw]) (by simp))⟩
  · exact ⟨_, e.snoc (.ret S c r hc (by simp [hw]) hm)⟩

/-- Two calls both read and then both write. -/
theorem Exec.race {s : Rocks} {O : IdentOrder} {op op' : Op} {b b' : Batch}
    (h1 : (callProg X O op).pending s = some b) (h2 : (callProg X O op').pending s = some b') :
    ∃ a a' S, Exec X s [.call 0 op, .call 1 op', .ret 0 (.ok a), .ret 1 (.ok a')] S ∧
      S.db = { s with kv := (s.kv.write b).write b' } := by
  have e := Exec.nil (X := X) (s := s)
  have e := e.snoc (.call _ 0 O op rfl)
  have e := e.snoc (.call _ 1 O op' rfl)
  obtain ⟨n, R, e⟩ := e.toWrite (c := 0) (callProg X O op) (by simp [setAt]) rfl h1
  obtain ⟨n', R', e⟩ := e.toWrite (c := 1) (callProg X O op') (by simp [setAt]) rfl h2
  have hn := (LogInv.exec e).single 0 (.write b n) (by simp [setAt])
  obtain ⟨a, ha⟩ := hn
  have hn' := (LogInv.exec e).single 1 (.write b' n') (by simp [setAt])
  obtain ⟨a', ha'⟩ := hn'
  have e := e.snoc (.write _ 0 b n (by simp [setAt]))
  have e := e.snoc (.write _ 1 b' n' (by simp [setAt]))
  obtain ⟨R, e⟩ := e.toRet (c := 0) (r := .ok a) (by simp [setAt, ha]) (by simp [Conc.init])
  obtain ⟨R', e⟩ := e.toRet (c := 1) (r := .ok a') (by simp [setAt, ha']) (by simp [Conc.init])
  exact ⟨a, a', _, e, rfl⟩

end Rocks.Conc

/-- The state in which two calls overlap: vertex 1 exists, and `p` is indexed. -/
def W.ready : Rocks := (RS .debug).run (W.calm [.createVertex ⟨W.u 1, W.t⟩, .indexProperty W.p]) Rocks.init

/-- The two calls. -/
def W.set (k : Nat) : Op := .setProperties (.specificVertex [W.u 1]) W.p (W.n k)

theorem W.pending (k : Nat) (hk : k = 7 ∨ k = 8) : ∃ b, (callProg (W.cfg .debug) .sorted (W.set k)).pending W.ready = some b := by
  have h : ((callProg (W.cfg .debug) .sorted (W.set k)).pending W.ready).isSome = true := by
    rcases hk with rfl | rfl <;> decide +kernel
  exact Option.isSome_iff_exists.1 h

/-- C51 fails: two overlapping calls set an indexed property of the same vertex, to 7 and to 8. Both succeed; the value is 8;
and from then on the query for the value 7 lists the vertex. -/
theorem C51_rocks_refuted : (RS .debug).Reach W.ready ∧ ∃ a a' S,
    Exec (W.cfg .debug) W.ready [.call 0 (W.set 7), .call 1 (W.set 8), .ret 0 (.ok a), .ret 1 (.ok a')] S ∧
    (RS .debug).value .sorted (.vertexWithPropertyValue W.p (W.n 7)) S.db = .ok (.vertices [⟨W.u 1, W.t⟩]) ∧
    (Rocks.graph (W.cfg .debug) S.db).vprop (W.u 1) W.p = some (W.n 8) := by
  refine ⟨⟨_, rfl, rfl, W.okCalls _ _ ?_⟩, ?_⟩
  · refine List.forall_mem_cons.2 ⟨trivial, List.forall_mem_cons.2 ⟨trivial, fun _ h => nomatch h⟩⟩
  · obtain ⟨b, hb⟩ := W.pending 7 (Or.inl rfl)
    obtain ⟨b', hb'⟩ := W.pending 8 (Or.inr rfl)
    obtain ⟨a, a', S, e, hS⟩ := Exec.race hb hb'
    refine ⟨a, a', S, e, ?_, ?_⟩
    · rw [hS]
      have h : ∀ o o' : Option Batch, o = (callProg (W.cfg .debug) .sorted (W.set 7)).pending W.ready →
          o' = (callProg (W.cfg .debug) .sorted (W.set 8)).pending W.ready →
          (RS .debug).value .sorted (.vertexWithPropertyValue W.p (W.n 7))
            { W.ready with kv := (W.ready.kv.write (o.getD [])).write (o'.getD []) } = .ok (.vertices [⟨W.u 1, W.t⟩]) := by
        rintro _ _ rfl rfl
        decide +kernel
      exact h (some b) (some b') hb.symm hb'.symm
    · rw [hS]
      have h : ∀ o o' : Option Batch, o = (callProg (W.cfg .debug) .sorted (W.set 7)).pending W.ready →
          o' = (callProg (W.cfg .debug) .sorted (W.set 8)).pending W.ready →
          (Rocks.graph (W.cfg .debug)
            { W.ready with kv := (W.ready.kv.write (o.getD [])).write (o'.getD []) }).vprop (W.u 1) W.p = some (W.n 8) := by
        rintro _ _ rfl rfl
        decide +kernel
      exact h (some b) (some b') hb.symm hb'.symm

/-- What is true of C51: if calls that overlap are independent (as far as the calls in `P` are concerned, which include all
that may write) and all that may write have returned, the state is that after some sequence of the calls; so if that sequence keeps to `Op.IndexSafe`, index queries
list exactly the owners with the property (value queries: with a value of the same hash). Missing: overlapping calls one of
which changes what the other looks at. -/
theorem C51_rocks_partial (X : Cfg) (P : Op → Prop) (hP : ∀ op, op.isWrite = true → P op) (h : List Ev) (S : Conc)
    (hx : Exec X Rocks.init h S) (hq : Apart P h)
    (ho : OkCalls (CanRead X) h) (hf : ∀ c op, Ev.call c op ∈ h → op.isWrite = true → ∃ r, Ev.ret c r ∈ h) :
    ∃ hist, (∀ p ∈ hist, ∃ c, Ev.call c p.2 ∈ h) ∧ (rocksStore X).OkHist hist ∧
      S.db = (rocksStore X).run hist Rocks.init ∧
      ((rocksStore X).Along (fun g op => op.IndexSafe X g) hist Rocks.init →
        (rocksStore X).IndexExactAt (fun w x => X.H w.stream == X.H x.stream) True S.db) := by
  obtain ⟨L, t, H, hdb⟩ := C34_rocks_partial X P hP Rocks.init (CanRead X) h S hx hq
  have hS := hdb hf
  have hok : (rocksStore X).OkHist (L.map (fun x => (x.env, x.op))) := by
    intro p hp
    obtain ⟨x, hx, rfl⟩ := List.mem_map.1 hp
    exact ho _ _ (H.called x hx).1
  refine ⟨L.map (fun x => (x.env, x.op)), ?_, hok, by rw [hS]; exact H.legal.reach, ?_⟩
  · intro p hp
    obtain ⟨x, hx, rfl⟩ := List.mem_map.1 hp
    exact ⟨_, (H.called x hx).1⟩
  · intro ha
    have := C12_rocks X _ hok ha
    rw [hS, H.legal.reach]; exact this

end IndraDB
