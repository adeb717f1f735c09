import Verif.Proofs.RocksApp
/-
Progress of the calls of a process that uses a RocksDB datastore through transactions and library calls.
-/
set_option linter.unusedSimpArgs false
namespace IndraDB
namespace Rocks
open Prog LockConc
variable {X : Cfg} {io : Bool}

theorem lo_txn (O : IdentOrder) (w : TxnCall) : (txnProg X O w).LockOnce := by
  cases w with
  | deleteVertices vs => exact LockOnce.map (lo_locked (fun _ => .forAll (fun _ => tk_vertexDelete _ _))) _
  | deleteEdges es => exact (lo_deleteEdges es).map _
  | deleteVertexProperties ps => exact LockOnce.map (lo_locked (fun _ => .forAll (fun _ => tk_vpDelete _ _ _))) _
  | deleteEdgeProperties ps => exact LockOnce.map (lo_locked (fun _ => .forAll (fun _ => tk_epDelete _ _ _))) _
  | sync => trivial
  | createVertex v => exact (tk_createVertex v).toLockOnce.map _
  | createEdge e => exact (tk_createEdge e).toLockOnce.map _
  | bulkInsert items => exact LockOnce.map (lo_locked (fun _ => .forAll (fun _ => tk_bulkItem _ _))) _
  | indexProperty n => exact (lo_indexProperty O n).map _
  | setVertexProperties ids n v => exact LockOnce.map (lo_locked (fun _ => .forAll (fun _ => tk_vpSet _ _ _ _))) _
  | setEdgeProperties es n v => exact LockOnce.map (lo_locked (fun _ => .forAll (fun _ => tk_epSet _ _ _ _))) _

theorem lo_access (O : IdentOrder) (a : Access) : (accessProg X O a).LockOnce := by
  have map : ∀ {α : Type} {p : Prog α} (f : α → Answer), p.Takes true → (p >>= fun a => (pure (f a) : Prog Answer)).LockOnce :=
    fun f h => h.lockOnce (fun _ => trivial)
  cases a with
  | lib op => exact (lo_call O op).map _
  | vertexCount => exact map _ (Takes.bind (tk_vertexIterate _) (fun _ => trivial))
  | allVertices => exact map _ (tk_vertexIterate _)
  | rangeVertices o => exact map _ (tk_vertexIterate _)
  | specificVertices ids => exact map _ (tk_specificVertices _)
  | vertexIdsWithProperty n => exact map _ (tk_vertexIdsWithProperty _)
  | vertexIdsWithPropertyValue n v => exact map _ (tk_vertexIdsWithPropertyValue _ _)
  | edgeCount => exact map _ (Takes.bind (tk_edgeIterateAll _) (fun _ => trivial))
  | allEdges => exact map _ (tk_edgeIterateAll _)
  | rangeEdges o => exact map _ (tk_edgeIterateRange _ _)
  | rangeReversedEdges o => exact map _ (tk_edgeIterateRange _ _)
  | specificEdges es => exact map _ (tk_specificEdges _)
  | edgesWithProperty n => exact map _ (tk_edgesWithProperty _)
  | edgesWithPropertyValue n v => exact map _ (tk_edgesWithPropertyValue _ _)
  | vertexProperty v n => exact map _ (tk_vpGet _ _)
  | vertexProperties v => exact map _ (tk_propItems (tk_vpIterate _))
  | edgeProperty e n => exact map _ (tk_epGet _ _)
  | edgeProperties e => exact map _ (tk_propItems (tk_epIterate _))
  | write w => exact (lo_txn O w).map _

namespace App

/-! ### There is an end -/

/-- Where a task can get in one step without making a new call. -/
inductive Kid : TaskAt → TaskAt → Prop
  | get (a k cf b n r) : Kid (.inside a (n r) k) (.inside a (.get cf b n) k)
  | scan (a k cf b n r) : Kid (.inside a (n r) k) (.inside a (.scan cf b n) k)
  | write (a k b n) : Kid (.inside a (n ()) k) (.inside a (.write b n) k)
  | readLock (a k h n r) : Kid (.inside a (n r) k) (.inside a (.readLock h n) k)
  | writeLock (a k n r) : Kid (.inside a (n r) k) (.inside a (.writeLock n) k)
  | setIndexed (a k ix n) : Kid (.inside a (n ()) k) (.inside a (.setIndexed ix n) k)
  | fails (a k p r) : (∀ r', p ≠ .done r') → Kid (.inside a (.done r) k) (.inside a p k)
  | leave (a p k t) : (∀ a p k, t ≠ .inside a p k) → t ≠ .unused → Kid t (.inside a p k)
  | stop (t) : Kid .finished (.between t)

theorem Kid.wf : WellFounded Kid := by
  have hf : Acc Kid .finished := ⟨_, fun y h => nomatch h⟩
  have hb : ∀ t, Acc Kid (.between t) := fun t => ⟨_, fun y h => by cases h; exact hf⟩
  have hu : ∀ t : TaskAt, (∀ a p k, t ≠ .inside a p k) → t ≠ .unused → Acc Kid t := by
    intro t h1 h2
    cases t with
    | unused => exact absurd rfl h2
    | between t => exact hb t
    | inside a p k => exact absurd rfl (h1 a p k)
    | finished => exact hf
  have hd : ∀ a r k, Acc Kid (.inside a (.done r) k) := by
    refine fun a r k => ⟨_, fun y h => ?_⟩
    cases h with
    | fails a k p r' h => exact absurd rfl (h r)
    | leave _ _ _ _ h1 h2 => exact hu _ h1 h2
  have hr : ∀ a k p, Acc Kid (.inside a p k) := by
    intro a k p
    induction p with
    | done r => exact hd a r k
    | get cf b n ih => exact ⟨_, fun y h => by cases h <;> first | exact hd _ _ _ | exact ih _ | exact hu _ (by assumption) (by assumption)⟩
    | scan cf b n ih => exact ⟨_, fun y h => by cases h <;> first | exact hd _ _ _ | exact ih _ | exact hu _ (by assumption) (by assumption)⟩
    | write b n ih => exact ⟨_, fun y h => by cases h <;> first | exact hd _ _ _ | exact ih _ | exact hu _ (by assumption) (by assumption)⟩
    | readLock b n ih => exact ⟨_, fun y h => by cases h <;> first | exact hd _ _ _ | exact ih _ | exact hu _ (by assumption) (by assumption)⟩
    | writeLock n ih => exact ⟨_, fun y h => by cases h <;> first | exact hd _ _ _ | exact ih _ | exact hu _ (by assumption) (by assumption)⟩
    | setIndexed b n ih => exact ⟨_, fun y h => by cases h <;> first | exact hd _ _ _ | exact ih _ | exact hu _ (by assumption) (by assumption)⟩
  refine ⟨fun a => ?_⟩
  cases a with
  | unused => exact ⟨_, fun y h => nomatch h⟩
  | between t => exact hb t
  | inside a p k => exact hr a k p
  | finished => exact hf

/-- The number of guards a task holds. -/
def guards (S : App) (c : Nat) : Nat := (if S.writer = some c then 1 else 0) + (if c ∈ S.readers then 1 else 0)

/-- Position of a task. -/
def pos (S : App) (c : Nat) : TaskAt × Nat := (S.tasks c, S.guards c)

theorem lexWf : WellFounded (Prod.Lex Kid (fun a b : Nat => a < b)) :=
  (Prod.lex ⟨Kid, Kid.wf⟩ ⟨fun a b : Nat => a < b, Nat.lt_wfRel.wf⟩).wf

theorem after_ne_unused (k : Except Error Answer → Task) (r : Res Answer) : after k r ≠ .unused := by
  intro h
  unfold after at h
  split at h <;> cases h

theorem Moves.less {polite : Bool} {S S' : App} {N : Nat} (hN : ∀ c, N ≤ c → S.tasks c = .unused) (h : S.Moves X polite S') :
    OneLess (Prod.Lex Kid (fun a b : Nat => a < b)) N S'.pos S.pos ∧ ∀ c, N ≤ c → S'.tasks c = .unused := by
  have key : ∀ (c : Nat) (q : TaskAt), S'.tasks = setAt S.tasks c q → Kid q (S.tasks c) →
      (∀ i, i ≠ c → S'.guards i = S.guards i) →
      OneLess (Prod.Lex Kid (fun a b : Nat => a < b)) N S'.pos S.pos ∧ ∀ c, N ≤ c → S'.tasks c = .unused := by
    intro c q h1 h2 h3
    have hc : c < N := by
      refine Nat.lt_of_not_le (fun hle => ?_)
      rw [hN c hle] at h2; cases h2
    refine ⟨⟨c, hc, ?_, fun i hi => ?_⟩, fun i hi => ?_⟩
    · simp only [pos, h1, setAt_self]
      exact .left _ _ h2
    · simp only [pos, h1, setAt_ne _ _ hi, h3 i hi]
    · rw [h1, setAt_ne _ _ (by omega)]; exact hN i hi
  have drop : ∀ (c : Nat) (t : TaskAt), S.tasks c = t → t ≠ .unused → S'.tasks = S.tasks → S'.guards c < S.guards c →
      (∀ i, i ≠ c → S'.guards i = S.guards i) →
      OneLess (Prod.Lex Kid (fun a b : Nat => a < b)) N S'.pos S.pos ∧ ∀ c, N ≤ c → S'.tasks c = .unused := by
    intro c t hp hne h1 h2 h3
    have hc : c < N := by
      refine Nat.lt_of_not_le (fun hle => ?_)
      rw [hN c hle] at hp; exact hne hp.symm
    refine ⟨⟨c, hc, ?_, fun i hi => ?_⟩, fun i hi => by rw [h1]; exact hN i hi⟩
    · simp only [pos, h1]; exact .right _ h2
    · simp only [pos, h1, h3 i hi]
  obtain ⟨e, hs, he, he', _⟩ := h
  cases hs with
  | start c t hc => exact absurd (by simp) (he c t)
  | enter c O a k hc => exact absurd (by simp) (he' c a)
  | flushFails c a k _ hc _ => exact absurd (by simp) (he' c a)
  | stop c t hc _ => exact key c _ rfl (hc ▸ .stop _) (fun _ _ => rfl)
  | getFails c a k cf b n _ hc => exact key c _ rfl (hc ▸ .fails _ _ _ _ (by simp)) (fun _ _ => rfl)
  | scanFails c i a k cf b n _ hc => exact key c _ rfl (hc ▸ .scan ..) (fun _ _ => rfl)
  | writeFails c a k b n _ hc => exact key c _ rfl (hc ▸ .fails _ _ _ _ (by simp)) (fun _ _ => rfl)
  | get c a k cf b n hc => exact key c _ rfl (hc ▸ .get ..) (fun _ _ => rfl)
  | scan c a k cf b n hc => exact key c _ rfl (hc ▸ .scan ..) (fun _ _ => rfl)
  | write c a k b n hc => exact key c _ rfl (hc ▸ .write ..) (fun _ _ => rfl)
  | readLock c a k held n hc hw =>
    refine key c _ rfl (hc ▸ .readLock ..) (fun i hi => ?_)
    cases held <;> simp [guards, hi]
  | writeLock c a k n hc hw hr =>
    refine key c _ rfl (hc ▸ .writeLock ..) (fun i hi => ?_)
    simp [guards, hw, Ne.symm hi]
  | setIndexed c a k ix n hc => exact key c _ rfl (hc ▸ .setIndexed ..) (fun _ _ => rfl)
  | unlock c a k r hc hw =>
    refine drop c _ hc (by simp) rfl ?_ (fun i hi => ?_)
    · simp [guards, hw]
    · simp [guards, hw, Ne.symm hi]
  | unlockRead c a k r hc hr =>
    refine drop c _ hc (by simp) rfl ?_ (fun i hi => ?_)
    · simp [guards, hr]
    · simp [guards, hi]
  | leave c a k r hc _ _ => exact key c _ rfl (hc ▸ .leave _ _ _ _ (after_outside k r) (after_ne_unused k r)) (fun _ _ => rfl)

theorem Moves.acc {polite : Bool} (N : Nat) (f : Nat → TaskAt × Nat) : ∀ S : App, S.pos = f →
    (∀ c, N ≤ c → S.tasks c = .unused) → Acc (fun x y => Moves X polite y x) S := by
  induction f using (OneLess.wf lexWf N).induction with
  | _ f ih =>
    intro S hS hN
    refine ⟨_, fun S' h => ?_⟩
    obtain ⟨h1, h2⟩ := Moves.less hN h
    exact ih _ (hS ▸ h1) S' rfl h2

theorem Exec.bounded {s : Rocks} {h : List AppEv} {S : App} (hx : Exec X io s h S) : ∃ N, ∀ c, N ≤ c → S.tasks c = .unused := by
  have key : ∀ (S S' : App) (c : Nat) (q : TaskAt), S'.tasks = setAt S.tasks c q →
      (∃ N, ∀ c, N ≤ c → S.tasks c = .unused) → ∃ N, ∀ c, N ≤ c → S'.tasks c = .unused := by
    rintro S S' c q h ⟨N, hN⟩
    refine ⟨max N (c + 1), fun i hi => ?_⟩
    rw [h, setAt_ne _ _ (by omega)]
    exact hN i (by omega)
  induction hx with
  | nil => exact ⟨0, fun c _ => rfl⟩
  | snoc hx hs ih =>
    cases hs with
    | unlock c a k r hc hw => exact ih
    | unlockRead c a k r hc hw => exact ih
    | start c => exact key _ _ c _ rfl ih
    | enter c => exact key _ _ c _ rfl ih
    | flushFails c => exact key _ _ c _ rfl ih
    | stop c => exact key _ _ c _ rfl ih
    | getFails c => exact key _ _ c _ rfl ih
    | scanFails c => exact key _ _ c _ rfl ih
    | writeFails c => exact key _ _ c _ rfl ih
    | get c => exact key _ _ c _ rfl ih
    | scan c => exact key _ _ c _ rfl ih
    | write c => exact key _ _ c _ rfl ih
    | readLock c => exact key _ _ c _ rfl ih
    | writeLock c => exact key _ _ c _ rfl ih
    | setIndexed c => exact key _ _ c _ rfl ih
    | leave c => exact key _ _ c _ rfl ih

/-! ### Nobody is stuck -/

/-- Who holds a lock is inside a call and takes no other. -/
structure LockInv (S : App) : Prop where
  once : ∀ c a p k, S.tasks c = .inside a p k → p.LockOnce
  writer : ∀ c, S.writer = some c → ∃ a p k, S.tasks c = .inside a p k ∧ p.Takes false
  readers : ∀ c, c ∈ S.readers → ∃ a p k, S.tasks c = .inside a p k ∧ p.Takes false

/-- A step of the call of `c` that changes no lock. -/
theorem LockInv.silent {S S' : App} (H : LockInv S) {c : Nat} {a : Access} {p p' : Prog Answer} {k : Except Error Answer → Task}
    (hc : S.tasks c = .inside a p k)
    (h1 : S'.tasks = setAt S.tasks c (.inside a p' k)) (h2 : S'.writer = S.writer) (h3 : S'.readers = S.readers)
    (ho : p.LockOnce → p'.LockOnce) (ht : p.Takes false → p'.Takes false) : LockInv S' := by
  have hold : ∀ i, (∃ a p k, S.tasks i = .inside a p k ∧ p.Takes false) → ∃ a p k, S'.tasks i = .inside a p k ∧ p.Takes false := by
    rintro i ⟨b, q, j, hq, hq'⟩
    rw [h1]
    by_cases hic : i = c
    · subst hic
      rw [hc] at hq; cases hq
      exact ⟨_, p', _, setAt_self _ _ _, ht hq'⟩
    · exact ⟨b, q, j, by rw [setAt_ne _ _ hic]; exact hq, hq'⟩
  refine ⟨fun i b q j hi => ?_, fun i hi => hold i (H.writer i (h2 ▸ hi)), fun i hi => hold i (H.readers i (h3 ▸ hi))⟩
  rw [h1] at hi
  rcases setAt_eq hi with ⟨rfl, e⟩ | ⟨_, e⟩
  · cases e; exact ho (H.once i _ p _ hc)
  · exact H.once i b q j e

/-- A step of a task that holds no lock. -/
theorem LockInv.outside {S S' : App} (H : LockInv S) {c : Nat} {t : TaskAt}
    (h1 : S'.tasks = setAt S.tasks c t) (h2 : S'.writer = S.writer) (h3 : S'.readers = S.readers)
    (hw : S.writer ≠ some c) (hr : c ∉ S.readers) (ht : ∀ a p k, t = .inside a p k → p.LockOnce) : LockInv S' := by
  have hold : ∀ i, i ≠ c → (∃ a p k, S.tasks i = .inside a p k ∧ p.Takes false) → ∃ a p k, S'.tasks i = .inside a p k ∧ p.Takes false := by
    rintro i hic ⟨b, q, j, hq, hq'⟩
    exact ⟨b, q, j, by rw [h1, setAt_ne _ _ hic]; exact hq, hq'⟩
  refine ⟨fun i b q j hi => ?_, fun i hi => ?_, fun i hi => ?_⟩
  · rw [h1] at hi
    rcases setAt_eq hi with ⟨_, e⟩ | ⟨_, e⟩
    · exact ht _ _ _ e
    · exact H.once i b q j e
  · rw [h2] at hi
    exact hold i (by rintro rfl; exact hw hi) (H.writer i hi)
  · rw [h3] at hi
    exact hold i (by rintro rfl; exact hr hi) (H.readers i hi)

theorem LockInv.free {S : App} (H : LockInv S) {c : Nat} (hc : ∀ a p k, S.tasks c ≠ .inside a p k) : S.writer ≠ some c ∧ c ∉ S.readers := by
  refine ⟨fun h => ?_, fun h => ?_⟩
  · obtain ⟨a, p, k, h, _⟩ := H.writer c h; exact hc _ _ _ h
  · obtain ⟨a, p, k, h, _⟩ := H.readers c h; exact hc _ _ _ h

theorem LockInv.step {S S' : App} {e : List AppEv} (H : LockInv S) (hs : Step X io S e S') : LockInv S' := by
  cases hs with
  | start c t hc =>
    have := H.free (c := c) (fun a p k h => by rw [hc] at h; cases h)
    exact H.outside rfl rfl rfl this.1 this.2 (fun _ _ _ h => by cases h)
  | enter c O a k hc =>
    have := H.free (c := c) (fun a p k h => by rw [hc] at h; cases h)
    exact H.outside rfl rfl rfl this.1 this.2 (fun _ _ _ h => by cases h; exact lo_access O a)
  | flushFails c a k _ hc _ =>
    have := H.free (c := c) (fun a p k h => by rw [hc] at h; cases h)
    exact H.outside rfl rfl rfl this.1 this.2 (fun _ _ _ h => by cases h; trivial)
  | stop c t hc _ =>
    have := H.free (c := c) (fun a p k h => by rw [hc] at h; cases h)
    exact H.outside rfl rfl rfl this.1 this.2 (fun _ _ _ h => by cases h)
  | get c a k cf b n hc => exact H.silent hc rfl rfl rfl (fun h => h _) (fun h => h _)
  | scan c a k cf b n hc => exact H.silent hc rfl rfl rfl (fun h => h _) (fun h => h _)
  | write c a k b n hc => exact H.silent (p' := n ()) hc rfl rfl rfl (fun h => h) (fun h => h)
  | setIndexed c a k ix n hc => exact H.silent (p' := n ()) hc rfl rfl rfl (fun h => h) (fun h => h)
  | getFails c a k cf b n _ hc => exact H.silent hc rfl rfl rfl (fun _ => trivial) (fun _ => trivial)
  | scanFails c i a k cf b n _ hc => exact H.silent hc rfl rfl rfl (fun h => h _) (fun h => h _)
  | writeFails c a k b n _ hc => exact H.silent hc rfl rfl rfl (fun _ => trivial) (fun _ => trivial)
  | readLock c a k held n hc hw =>
    cases held with
    | false => exact H.silent hc rfl rfl rfl (fun h => h _) (fun h => h.2 _)
    | true =>
      have hn := H.once c _ _ _ hc
      refine ⟨fun i b q j hi => ?_, fun i hi => ?_, fun i hi => ?_⟩
      · rcases setAt_eq hi with ⟨_, e⟩ | ⟨_, e⟩
        · cases e; exact (hn _).toLockOnce
        · exact H.once i b q j e
      · exact absurd (hw.symm.trans hi) (by simp)
      · by_cases hic : i = c
        · subst hic; exact ⟨_, _, _, setAt_self _ _ _, hn _⟩
        · obtain ⟨b, q, j, hq, hq'⟩ := H.readers i (by simpa [hic] using hi)
          exact ⟨b, q, j, by show setAt _ _ _ _ = _; rw [setAt_ne _ _ hic]; exact hq, hq'⟩
  | writeLock c a k n hc hw hr =>
    have hn := H.once c _ _ _ hc
    refine ⟨fun i b q j hi => ?_, fun i hi => ?_, fun i hi => ?_⟩
    · rcases setAt_eq hi with ⟨_, e⟩ | ⟨_, e⟩
      · cases e; exact Takes.toLockOnce (hn _)
      · exact H.once i b q j e
    · cases hi; exact ⟨_, _, _, setAt_self _ _ _, hn _⟩
    · exact absurd (hr ▸ hi : i ∈ []) (by simp)
  | unlock c a k r hc hw => exact ⟨H.once, fun i hi => (nomatch hi), H.readers⟩
  | unlockRead c a k r hc hr => exact ⟨H.once, H.writer, fun i hi => H.readers i (List.mem_filter.1 hi).1⟩
  | leave c a k r hc hw hr => exact H.outside rfl rfl rfl hw hr (fun _ _ _ h => absurd h (after_outside k r _ _ _))

theorem LockInv.exec {s : Rocks} {h : List AppEv} {S : App} (hx : Exec X io s h S) : LockInv S := by
  induction hx with
  | nil => exact ⟨(by intro c a p k h; cases h), (by intro c h; cases h), by intro c h; cases h⟩
  | snoc _ hs ih => exact ih.step hs

theorem read_ne {n : SSet Identifier → Prog Answer} {held : Bool} {r : SSet Identifier} : n r ≠ .readLock held n := by
  have : ∀ (p : Prog Answer) (held : Bool) (n : SSet Identifier → Prog Answer) (r : SSet Identifier), p = .readLock held n → n r ≠ p := by
    intro p
    induction p with
    | readLock held' n' ih =>
      intro held n r hp
      injection hp with h1 h2
      subst h1 h2
      intro e
      exact ih r held' n' r e rfl
    | _ => intro held n r hp; cases hp
  exact this _ held n r rfl

theorem write_ne {n : SSet Identifier → Prog Answer} {r : SSet Identifier} : n r ≠ .writeLock n := by
  have : ∀ (p : Prog Answer) (n : SSet Identifier → Prog Answer) (r : SSet Identifier), p = .writeLock n → n r ≠ p := by
    intro p
    induction p with
    | writeLock n' ih =>
      intro n r hp
      injection hp with hp
      subst hp
      intro e
      exact ih r n' r e rfl
    | _ => intro n r hp; cases hp
  exact this _ n r rfl

/-- A step of a call that takes no lock. -/
theorem free_move {polite : Bool} {S : App} {c : Nat} {a : Access} {p : Prog Answer} {k : Except Error Answer → Task}
    (hc : S.tasks c = .inside a p k)
    (hl : ∀ held n, p ≠ .readLock held n) (hl' : ∀ n, p ≠ .writeLock n) : ∃ S', S.Moves X polite S' := by
  have key : ∀ (S' : App) (e : List AppEv), Step X true S e S' → (∀ c t, AppEv.start c t ∉ e) → (∀ c a, AppEv.enter c a ∉ e) →
      (S'.tasks = S.tasks ∨ ∃ q, S'.tasks = setAt S.tasks c q) → ∃ S', S.Moves X polite S' := by
    intro S' e hs he he' h
    refine ⟨S', e, hs, he, he', ?_⟩
    rintro _ ⟨c', a', held, n, k', hc', hS'⟩
    exfalso
    by_cases hcc : c' = c
    · subst hcc
      rw [hc] at hc'
      cases hc'
      exact hl _ _ rfl
    · have e1 : S'.tasks c' = S.tasks c' := by
        rcases h with h | ⟨q, h⟩
        · rw [h]
        · rw [h, setAt_ne _ _ hcc]
      rw [hS', setAt_self, hc'] at e1
      exact read_ne (by injection e1)
  cases p with
  | done r =>
    by_cases hw : S.writer = some c
    · exact key _ _ (.unlock S c a k r hc hw) (by simp) (by simp) (Or.inl rfl)
    · by_cases hr : c ∈ S.readers
      · exact key _ _ (.unlockRead S c a k r hc hr) (by simp) (by simp) (Or.inl rfl)
      · exact key _ _ (.leave S c a k r hc hw hr) (by simp) (by simp) (Or.inr ⟨_, rfl⟩)
  | get cf b n => exact key _ _ (.get S c a k cf b n hc) (by simp) (by simp) (Or.inr ⟨_, rfl⟩)
  | scan cf b n => exact key _ _ (.scan S c a k cf b n hc) (by simp) (by simp) (Or.inr ⟨_, rfl⟩)
  | write b n => exact key _ _ (.write S c a k b n hc) (by simp) (by simp) (Or.inr ⟨_, rfl⟩)
  | setIndexed ix n => exact key _ _ (.setIndexed S c a k ix n hc) (by simp) (by simp) (Or.inr ⟨_, rfl⟩)
  | readLock held n => exact absurd rfl (hl held n)
  | writeLock n => exact absurd rfl (hl' n)

/-- As long as a task is inside a call, some task can make a step. -/
theorem LockInv.progress {polite : Bool} {S : App} (H : LockInv S) {c : Nat} {a : Access} {p : Prog Answer}
    {k : Except Error Answer → Task} (hc : S.tasks c = .inside a p k) : ∃ S', S.Moves X polite S' := by
  have holder : ∀ c, (∃ a p k, S.tasks c = .inside a p k ∧ p.Takes false) → ∃ S', S.Moves X polite S' := by
    rintro c ⟨a, p, k, hp, ht⟩
    refine free_move hp ?_ ?_
    · rintro held n rfl; exact absurd ht.1.2 (by simp)
    · rintro n rfl; exact ht
  cases hw : S.writer with
  | some w => exact holder w (H.writer w hw)
  | none =>
    cases hr : S.readers with
    | cons r rs => exact holder r (H.readers r (by rw [hr]; simp))
    | nil =>
      by_cases hww : S.WriterWaits
      · obtain ⟨c', a', n, k', hc'⟩ := hww
        refine ⟨_, [], .writeLock S c' a' k' n hc' hw hr, by simp, by simp, ?_⟩
        rintro _ ⟨c'', a'', held, n'', k'', h1, h2⟩
        exfalso
        have hne : c'' ≠ c' := by rintro rfl; rw [hc'] at h1; cases h1
        have e1 := congrFun h2 c'
        simp only at e1
        rw [setAt_self, setAt_ne _ _ (Ne.symm hne), hc'] at e1
        exact write_ne (by injection e1)
      · cases p with
        | readLock held n => exact ⟨_, [], .readLock S c a k held n hc hw, by simp, by simp, fun _ _ => hww⟩
        | writeLock n => exact absurd ⟨c, a, n, k, hc⟩ hww
        | _ => exact free_move hc (by simp) (by simp)

theorem Exec.star {polite : Bool} {s : Rocks} {h : List AppEv} {S D : App} (hx : Exec X io s h S) (hs : Star (Moves X polite) S D) :
    ∃ h', Exec X true s (h ++ h') D := by
  induction hs with
  | refl => exact ⟨[], by simpa using hx.weaken⟩
  | tail _ hm ih =>
    obtain ⟨h', hx'⟩ := ih
    obtain ⟨e, hst, _⟩ := hm
    exact ⟨h' ++ e, by rw [← List.append_assoc]; exact hx'.snoc hst⟩

/-! ### Calls alone -/

theorem run_map {α β : Type} (p : Prog α) (f : α → β) (s : Rocks) :
    (p >>= fun a => (pure (f a) : Prog β)).run s = Upd.map f (p.run s) := by
  rw [Prog.run_bind]
  rcases p.run s with ⟨s', r⟩
  cases r <;> rfl

theorem sees_map {α β : Type} {p : Prog α} (h : p.Reading) (f : α → β) (s : Rocks) :
    (p >>= fun a => (pure (f a) : Prog β)).run s = (s, (p.eval s).map f) := by
  rw [run_map]
  exact Prod.ext (h.run s) rfl

theorem txnProg_run (O : IdentOrder) (w : TxnCall) (s : Rocks) : (txnProg X O w).run s = (Rocks.txn X O).call w s := by
  cases w <;> exact run_map _ _ _

theorem accessProg_run (O : IdentOrder) (a : Access) (s : Rocks) : (accessProg X O a).run s = (Rocks.txn X O).access a s := by
  cases a with
  | lib op => exact (run_map _ _ _).trans (by rw [callProg_run]; rfl)
  | write w => exact (run_map _ _ _).trans (by rw [txnProg_run]; rfl)
  | vertexCount => exact (run_map _ _ _).trans rfl
  | edgeCount => exact (run_map _ _ _).trans rfl
  | allVertices => exact sees_map (rd_vertexIterate _) _ _
  | rangeVertices o => exact sees_map (rd_vertexIterate _) _ _
  | specificVertices ids => exact sees_map (rd_specificVertices _) _ _
  | vertexIdsWithProperty n => exact sees_map (rd_vertexIdsWithProperty _) _ _
  | vertexIdsWithPropertyValue n v => exact sees_map (rd_vertexIdsWithPropertyValue _ _) _ _
  | allEdges => exact sees_map (rd_edgeIterateAll _) _ _
  | rangeEdges o => exact sees_map (rd_edgeIterateRange _ _) _ _
  | rangeReversedEdges o => exact sees_map (rd_edgeIterateRange _ _) _ _
  | specificEdges es => exact sees_map (rd_specificEdges _) _ _
  | edgesWithProperty n => exact sees_map (rd_edgesWithProperty _) _ _
  | edgesWithPropertyValue n v => exact sees_map (rd_edgesWithPropertyValue _ _) _ _
  | vertexProperty v n => exact sees_map (rd_vpGet _ _) _ _
  | vertexProperties v => exact sees_map (rd_propItems (rd_vpIterate _)) _ _
  | edgeProperty e n => exact sees_map (rd_epGet _ _) _ _
  | edgeProperties e => exact sees_map (rd_propItems (rd_epIterate _)) _ _

/-- Nobody but `c` holds the lock. -/
def OwnLock (S : App) (c : Nat) : Prop := (S.writer = none ∨ S.writer = some c) ∧ ∀ i ∈ S.readers, i = c

theorem Exec.returns {s : Rocks} {h : List AppEv} {S : App} {c : Nat} {a : Access} {k : Except Error Answer → Task} {r : Res Answer}
    (hx : Exec X io s h S) (hc : S.tasks c = .inside a (.done r) k) (ho : S.OwnLock c) :
    ∃ S', Exec X io s (h ++ [.leave c a r]) S' ∧ S'.db = S.db ∧ S'.tasks c = after k r ∧ S'.writer = none ∧ S'.readers = [] := by
  have last : ∀ S1 : App, Exec X io s h S1 → S1.tasks c = .inside a (.done r) k → S1.db = S.db → S1.writer = none → S1.readers = [] →
      ∃ S', Exec X io s (h ++ [.leave c a r]) S' ∧ S'.db = S.db ∧ S'.tasks c = after k r ∧ S'.writer = none ∧ S'.readers = [] :=
    fun S1 hx hc hd hw hr => ⟨_, hx.snoc (.leave S1 c a k r hc (by rw [hw]; simp) (by rw [hr]; simp)), hd, setAt_self _ _ _, hw, hr⟩
  have next : ∀ S1 : App, Exec X io s h S1 → S1.tasks c = .inside a (.done r) k → S1.db = S.db → S1.writer = none → (∀ i ∈ S1.readers, i = c) →
      ∃ S', Exec X io s (h ++ [.leave c a r]) S' ∧ S'.db = S.db ∧ S'.tasks c = after k r ∧ S'.writer = none ∧ S'.readers = [] := by
    intro S1 hx hc hd hw hr
    cases e : S1.readers with
    | nil => exact last S1 hx hc hd hw e
    | cons i l =>
      have hi : c ∈ S1.readers := by
        have := hr i (by rw [e]; exact List.mem_cons_self)
        rw [e, this]; exact List.mem_cons_self
      have hx' := hx.snoc (.unlockRead S1 c a k r hc hi)
      rw [List.append_nil] at hx'
      refine last _ hx' hc hd hw ?_
      show S1.readers.filter (· ≠ c) = []
      rw [List.filter_eq_nil_iff]
      intro j hj
      simp [hr j hj]
  rcases ho.1 with hw | hw
  · exact next S hx hc rfl hw ho.2
  · have hx' := hx.snoc (.unlock S c a k r hc hw)
    rw [List.append_nil] at hx'
    exact next _ hx' hc rfl rfl ho.2

theorem Exec.runs {s : Rocks} {h : List AppEv} {c : Nat} {a : Access} {k : Except Error Answer → Task} (p : Prog Answer) :
    ∀ S : App, Exec X io s h S → S.tasks c = .inside a p k → S.OwnLock c → (p.Takes false ∨ (p.LockOnce ∧ S.writer = none ∧ S.readers = [])) →
    ∃ S', Exec X io s (h ++ [.leave c a (p.run S.db).2]) S' ∧ S'.db = (p.run S.db).1 ∧ S'.tasks c = after k (p.run S.db).2 ∧
      S'.writer = none ∧ S'.readers = [] := by
  have quiet : ∀ {S S' : App}, Exec X io s h S → Step X io S [] S' → Exec X io s h S' := by
    intro S S' hx hs
    simpa using hx.snoc hs
  induction p with
  | done r => exact fun S hx hc ho _ => hx.returns hc ho
  | get cf b n ih =>
    intro S hx hc ho hl
    have hq := quiet hx (.get S c a k cf b n hc)
    have := ih _ _ hq (setAt_self _ _ _) ho (hl.imp (fun h => h _) (fun h => ⟨h.1 _, h.2⟩))
    exact this
  | scan cf lo n ih =>
    intro S hx hc ho hl
    have hq := quiet hx (.scan S c a k cf lo n hc)
    have := ih _ _ hq (setAt_self _ _ _) ho (hl.imp (fun h => h _) (fun h => ⟨h.1 _, h.2⟩))
    exact this
  | write b n ih =>
    intro S hx hc ho hl
    have hq := quiet hx (.write S c a k b n hc)
    have := ih _ _ hq (setAt_self _ _ _) ho (hl.imp (fun h => h) (fun h => ⟨h.1, h.2⟩))
    exact this
  | setIndexed ix n ih =>
    intro S hx hc ho hl
    have hq := quiet hx (.setIndexed S c a k ix n hc)
    have := ih _ _ hq (setAt_self _ _ _) ho (hl.imp (fun h => h) (fun h => ⟨h.1, h.2⟩))
    exact this
  | readLock held n ih =>
    intro S hx hc ho hl
    rcases hl with hl | ⟨hl, hw, hr⟩
    · exact absurd hl.1.2 (by simp)
    · have hq := quiet hx (.readLock S c a k held n hc hw)
      have := ih _ _ hq (setAt_self _ _ _) ⟨.inl hw, ?_⟩ ?_
      · exact this
      · show ∀ i ∈ (if held then c :: S.readers else S.readers), i = c
        rw [hr]
        cases held <;> simp
      · cases held with
        | false => exact .inr ⟨hl _, hw, by simpa using hr⟩
        | true => exact .inl (hl _)
  | writeLock n ih =>
    intro S hx hc ho hl
    rcases hl with hl | ⟨hl, hw, hr⟩
    · exact hl.elim
    · have hq := quiet hx (.writeLock S c a k n hc hw hr)
      have := ih _ _ hq (setAt_self _ _ _) ⟨.inr rfl, ho.2⟩ (.inl (hl _))
      exact this

/-- The contents of the database are what has been written. -/
theorem Exec.log {s : Rocks} {h : List AppEv} {S : App} (hx : Exec X io s h S) :
    S.db.kv = S.log.foldl (fun kv x => kv.write x.2) s.kv := by
  induction hx with
  | nil => rfl
  | snoc hx hs ih => cases hs <;> first | exact ih | (rw [List.foldl_append, ← ih]; rfl)

end App
end Rocks
end IndraDB
