import Verif.Proofs.RocksCalm
import Verif.Proofs.Locks
import Verif.Proofs.Progress
import Verif.Proofs.RocksComplete
/-
The set of indexed names while calls overlap: it never loses a name, and a name is in it once `index_property` has returned
success.
-/
set_option linter.unusedSimpArgs false
namespace IndraDB

/-- One set of names contains the other. -/
def Sub (a b : SSet Identifier) : Prop := ∀ m, a.contains m = true → b.contains m = true

theorem Sub.refl (a : SSet Identifier) : Sub a a := fun _ h => h
theorem Sub.trans {a b c : SSet Identifier} (h : Sub a b) (h' : Sub b c) : Sub a c := fun m hm => h' m (h m hm)
theorem Sub.add (a : SSet Identifier) (n : Identifier) : Sub a (a.add n) := fun m hm => by
  rw [SSet.contains_add, hm, Bool.or_true]

namespace Prog
variable {α β : Type}

/-- `p.Names M Q w ix`: with the set of indexed names being `ix`, holding the write lock iff `w`, while others may add names
only if `p` does not hold the write lock: the program changes the set only when holding the write lock, and only by adding
names in `M`; and it ends with a set and an outcome satisfying `Q`. -/
def Names (M : Identifier → Prop) (Q : SSet Identifier → Res α → Prop) : Bool → SSet Identifier → Prog α → Prop
  | _, ix, .done r => Q ix r
  | w, ix, .get _ _ n => ∀ r, (n r).Names M Q w ix
  | w, ix, .scan _ _ n => ∀ r, (n r).Names M Q w ix
  | w, ix, .write _ n => (n ()).Names M Q w ix
  | w, ix, .readLock _ n => w = false ∧ ∀ ix', Sub ix ix' → (n ix').Names M Q false ix'
  | w, ix, .writeLock n => w = false ∧ ∀ ix', Sub ix ix' → (n ix').Names M Q true ix'
  | w, ix, .setIndexed ix' n => w = true ∧ Sub ix ix' ∧ (∀ m, ix'.contains m = true → ix.contains m = true ∨ M m) ∧
      (n ()).Names M Q true ix'

variable {M : Identifier → Prop} {Q : SSet Identifier → Res α → Prop}

theorem Names.mono {p : Prog α} (hQ : ∀ ix ix' r, Sub ix ix' → Q ix r → Q ix' r) {ix ix' : SSet Identifier}
    (h : p.Names M Q false ix) (hs : Sub ix ix') : p.Names M Q false ix' := by
  induction p with
  | done r => exact hQ _ _ _ hs h
  | get cf k n ih => exact fun r => ih r (h r)
  | scan cf k n ih => exact fun r => ih r (h r)
  | write b n ih => exact ih () h
  | readLock _ n ih => exact ⟨rfl, fun x hx => h.2 x (hs.trans hx)⟩
  | writeLock n ih => exact ⟨rfl, fun x hx => h.2 x (hs.trans hx)⟩
  | setIndexed x n ih => cases h.1

/-- A program that does not change the set. -/
theorem Once.names {p : Prog α} (h : p.Once) (hQ : ∀ ix r, Q ix r) (ix : SSet Identifier) : p.Names M Q false ix := by
  induction p generalizing ix with
  | done r => exact hQ _ _
  | get cf k n ih => exact fun r => ih r (h r) ix
  | scan cf k n ih => exact fun r => ih r (h r) ix
  | write b n ih =>
    obtain ⟨a, ha⟩ := h
    show (n ()).Names M Q false ix
    rw [ha]; exact hQ _ _
  | readLock _ n ih => exact ⟨rfl, fun x _ => ih x (h x) x⟩
  | writeLock n ih => exact h.elim
  | setIndexed x n ih => exact h.elim

/-- A program that takes no locks and does not change the set. -/
theorem Once.namesHeld {p : Prog α} {w : Bool} {ix : SSet Identifier} (h : p.Once) (ht : p.Takes false) (hQ : ∀ r, Q ix r) :
    p.Names M Q w ix := by
  induction p with
  | done r => exact hQ _
  | get cf k n ih => exact fun r => ih r (h r) (ht r)
  | scan cf k n ih => exact fun r => ih r (h r) (ht r)
  | write b n ih =>
    obtain ⟨a, ha⟩ := h
    show (n ()).Names M Q w ix
    rw [ha]; exact hQ _
  | readLock _ n ih => exact absurd ht.1.2 (by simp)
  | writeLock n ih => exact h.elim
  | setIndexed x n ih => exact h.elim

theorem Once.map {p : Prog α} (h : p.Once) (f : α → β) : (p >>= fun a => (Pure.pure (f a) : Prog β)).Once := by
  show (p.bind _).Once
  induction p with
  | done r => cases r <;> trivial
  | get cf k n ih => exact fun r => ih r (h r)
  | scan cf k n ih => exact fun r => ih r (h r)
  | write b n ih =>
    obtain ⟨a, ha⟩ := h
    exact ⟨f a, by show (n ()).bind _ = _; rw [ha]; rfl⟩
  | readLock _ n ih => exact fun r => ih r (h r)
  | writeLock n ih => exact h.elim
  | setIndexed x n ih => exact h.elim

theorem Reading.toOnce {p : Prog α} (h : p.Reading) : p.Once := by
  induction p with
  | done r => trivial
  | get cf k n ih => exact fun r => ih r (h r)
  | scan cf k n ih => exact fun r => ih r (h r)
  | write b n ih => exact h.elim
  | readLock _ n ih => exact fun r => ih r (h r)
  | writeLock n ih => exact h.elim
  | setIndexed x n ih => exact h.elim

end Prog

namespace Rocks
open Prog Conc LockConc
variable {X : Cfg}

/-- What the end of a call says about the set. -/
def Post (op : Op) (ix : SSet Identifier) (r : Res Reply) : Prop :=
  ∀ n a, op = .indexProperty n → r = .ok a → ix.contains n = true

theorem Post.mono (op : Op) (ix ix' : SSet Identifier) (r : Res Reply) (hs : Sub ix ix') (h : Post op ix r) : Post op ix' r :=
  fun n a h1 h2 => hs n (h n a h1 h2)

/-- All calls but `index_property` leave the set alone. -/
theorem once_call (O : IdentOrder) (op : Op) (h : ∀ n, op ≠ .indexProperty n) : (callProg X O op).Once := by
  cases op with
  | sync => trivial
  | createVertex v => exact (once_createVertex v).map _
  | createVertexFromType id t =>
    have h : (createVertexFromTypeP X id t) = vertexExists X id >>= fun r => if r then Prog.lift (.error (.err .uuidTaken))
        else Prog.write (vertexCreate X ⟨id, t⟩) (fun _ => .done (.ok id)) := by
      unfold createVertexFromTypeP createVertex
      show Prog.bind (Prog.bind _ _) _ = _
      show Prog.get _ _ _ = Prog.get _ _ _
      congr 1
      funext r
      cases r <;> rfl
    refine Once.map ?_ _
    rw [h]
    refine (rd_vertexExists _).once (fun r => ?_)
    cases r
    · exact ⟨_, rfl⟩
    · trivial
  | createEdge e => exact (once_createEdge e).map _
  | get q => exact ((rd_query q []).toOnce).map _
  | delete q =>
    refine Once.map ((rd_lastOutput q).once (fun v => ?_)) _
    cases v with
    | vertices vs => exact once_deleteVertices vs
    | edges es => exact once_deleteEdges es
    | vertexProperties l => exact once_deleteVertexProperties _
    | edgeProperties l => exact once_deleteEdgeProperties _
    | count n => trivial
  | setProperties q n x =>
    refine Once.map ((rd_lastOutput q).once (fun v => ?_)) _
    cases v with
    | vertices vs => exact once_setVertexProperties _ _ _
    | edges es => exact once_setEdgeProperties _ _ _
    | _ => trivial
  | bulkInsert items => exact (once_bulkInsert items).map _
  | indexProperty n => exact absurd rfl (h n)

theorem names_indexProperty (O : IdentOrder) (n : Identifier) (ix : SSet Identifier) :
    (callProg X O (.indexProperty n)).Names (· = n) (Post (.indexProperty n)) false ix := by
  refine ⟨rfl, fun x _ => ?_⟩
  show Prog.Names _ _ _ _ (Prog.bind (if _ then _ else _) _)
  by_cases hx : x.contains n = true
  · rw [if_pos hx]
    intro m a h1 h2
    cases h1; exact hx
  · rw [if_neg hx]
    refine ⟨rfl, .add x n, ?_, ?_⟩
    · intro m hm
      rw [SSet.contains_add, Bool.or_eq_true] at hm
      exact hm.symm.imp id (fun h => by simpa using h)
    · refine Once.namesHeld (Once.map ?_ _) (Takes.bind ?_ (fun _ => trivial)) (fun r m a h1 _ => ?_)
      · refine (rd_vertexIterate _).once (fun l => ?_)
        refine Reading.once (Reading.forItems (fun v => (rd_vpGet _ _).bind (fun r => by cases r <;> trivial))) (fun b => ?_)
        refine (rd_edgeIterateAll _).once (fun l => ?_)
        refine Reading.once (Reading.forItems (fun v => (rd_epGet _ _).bind (fun r => by cases r <;> trivial))) (fun b => ?_)
        exact once_writeBatch _
      · refine (tk_vertexIterate _).bind (fun l => ?_)
        refine Takes.bind (Takes.forItems (fun v => (tk_vpGet _ _).bind (fun r => by cases r <;> trivial))) (fun b => ?_)
        refine (tk_edgeIterateAll _).bind (fun l => ?_)
        refine Takes.bind (Takes.forItems (fun v => (tk_epGet _ _).bind (fun r => by cases r <;> trivial))) (fun b => ?_)
        exact tk_writeBatch _
      · cases h1
        rw [SSet.contains_add]; simp

/-! ### Executions -/

/-- The event is about call `c`. -/
def About (c : Nat) : Ev → Prop
  | .call d _ => d = c
  | .ret d _ => d = c

/-- What is known of call `c` running `p`. -/
def Runs (h : List Ev) (S : Conc) (c : Nat) (p : Prog Reply) : Prop := ∃ op, Ev.call c op ∈ h ∧
  (∀ op', Ev.call c op' ∈ h → op' = op) ∧ p.Names (fun m => op = .indexProperty m) (Post op) (S.writer == some c) S.db.indexed

structure NamesInv (s : Rocks) (h : List Ev) (S : Conc) : Prop where
  base : Sub s.indexed S.db.indexed
  upper : ∀ m, S.db.indexed.contains m = true → s.indexed.contains m = true ∨ ∃ c, Ev.call c (.indexProperty m) ∈ h
  calls : ∀ c p, S.calls c = .running p → Runs h S c p
  unused : ∀ c, S.calls c = .unused → ∀ e ∈ h, ¬ About c e
  rets : ∀ c n a, Ev.call c (.indexProperty n) ∈ h → Ev.ret c (.ok a) ∈ h → S.db.indexed.contains n = true

theorem Runs.mono {h : List Ev} {S S' : Conc} {c : Nat} {p : Prog Reply} (H : Runs h S c p) (hw : S.writer ≠ some c)
    (hw' : S'.writer ≠ some c) (hs : Sub S.db.indexed S'.db.indexed) : Runs h S' c p := by
  obtain ⟨op, h1, h2, h3⟩ := H
  refine ⟨op, h1, h2, ?_⟩
  have e : (S.writer == some c) = false := by simpa using hw
  have e' : (S'.writer == some c) = false := by simpa using hw'
  rw [e] at h3
  rw [e']
  exact h3.mono (Post.mono op) hs

/-- A step of `c` within its program. -/
theorem NamesInv.silent {s : Rocks} {h : List Ev} {S S' : Conc} (H : NamesInv s h S) {c : Nat} {p p' : Prog Reply}
    (hc : S.calls c = .running p) (h1 : S'.calls = setAt S.calls c (.running p')) (h2 : S'.writer = S.writer)
    (h3 : S'.db.indexed = S.db.indexed) (hp : Runs h S c p → Runs h S c p') : NamesInv s h S' := by
  have same : ∀ i q, Runs h S i q → Runs h S' i q := by
    intro i q hr
    obtain ⟨op, a, b, d⟩ := hr
    exact ⟨op, a, b, by rw [h2, h3]; exact d⟩
  refine ⟨by rw [h3]; exact H.base, by rw [h3]; exact H.upper, ?_, ?_, by rw [h3]; exact H.rets⟩
  · intro i q hi
    rw [h1] at hi
    rcases setAt_eq hi with ⟨e, hq⟩ | ⟨_, hq⟩
    · cases hq; subst e; exact same _ _ (hp (H.calls _ _ hc))
    · exact same _ _ (H.calls i q hq)
  · intro i hi e he
    rw [h1] at hi
    rcases setAt_eq hi with ⟨_, hq⟩ | ⟨_, hq⟩
    · cases hq
    · exact H.unused i hq e he

/-- The start of a call. -/
theorem NamesInv.start {s : Rocks} {h : List Ev} {S : Conc} (H : NamesInv s h S) (L : LockInv S) {c : Nat} {p : Prog Reply} {op : Op}
    (hc : S.calls c = .unused) (hp : ∀ ix, p.Names (fun m => op = .indexProperty m) (Post op) false ix) :
    NamesInv s (h ++ [.call c op]) { S with calls := setAt S.calls c (.running p) } := by
  have hw : (S.writer == some c) = false := by
    cases hw : S.writer with
    | none => rfl
    | some d =>
      obtain ⟨q, hq, _⟩ := L.writer d hw
      have : d ≠ c := by rintro rfl; rw [hc] at hq; cases hq
      simpa using this
  have nc : ∀ op', Ev.call c op' ∉ h := fun op' hm => H.unused c hc _ hm rfl
  refine ⟨H.base, fun m hm => (H.upper m hm).imp id (fun ⟨d, hd⟩ => ⟨d, List.mem_append_left _ hd⟩), ?_, ?_, ?_⟩
  · intro i q hi
    rcases setAt_eq hi with ⟨e, hq⟩ | ⟨hne, hq⟩
    · cases hq; subst e
      refine ⟨op, by simp, fun op' hm => ?_, by show Prog.Names _ _ (S.writer == some i) _ _; rw [hw]; exact hp _⟩
      rcases List.mem_append.1 hm with hm | hm
      · exact absurd hm (nc op')
      · simpa using hm
    · obtain ⟨op', a, b, d⟩ := H.calls i q hq
      refine ⟨op', List.mem_append_left _ a, fun op'' hm => ?_, d⟩
      rcases List.mem_append.1 hm with hm | hm
      · exact b op'' hm
      · simp at hm; exact absurd hm.1 hne
  · intro i hi e he
    rcases setAt_eq hi with ⟨_, hq⟩ | ⟨hne, hq⟩
    · cases hq
    · rcases List.mem_append.1 he with he | he
      · exact H.unused i hq e he
      · rw [List.mem_singleton] at he
        subst he
        exact fun e => hne e.symm
  · intro i n a h1 h2
    have h2' : Ev.ret i (.ok a) ∈ h := by
      rcases List.mem_append.1 h2 with h2 | h2
      · exact h2
      · simp at h2
    rcases List.mem_append.1 h1 with h1 | h1
    · exact H.rets i n a h1 h2'
    · simp at h1
      obtain ⟨rfl, _⟩ := h1
      exact (H.unused i hc _ h2' rfl).elim

theorem names_call (O : IdentOrder) (op : Op) (ix : SSet Identifier) :
    (callProg X O op).Names (fun m => op = .indexProperty m) (Post op) false ix := by
  by_cases h : ∃ n, op = .indexProperty n
  · obtain ⟨n, rfl⟩ := h
    have := names_indexProperty (X := X) O n ix
    have e : (fun m => Op.indexProperty n = .indexProperty m) = (· = n) := by
      funext m
      exact propext ⟨fun h => by cases h; rfl, fun h => by subst h; rfl⟩
    rw [e]; exact this
  · exact (once_call O op (fun n hn => h ⟨n, hn⟩)).names (fun ix r n a e _ => absurd ⟨n, e⟩ h) ix

theorem NamesInv.step {s : Rocks} {h : List Ev} {S S' : Conc} {e : List Ev} (H : NamesInv s h S) (L : LockInv S)
    (hs : Conc.Step X S e S') : NamesInv s (h ++ e) S' ∧ Sub S.db.indexed S'.db.indexed := by
  have nil : ∀ {T : Conc}, NamesInv s h T → NamesInv s (h ++ []) T := fun h => by rw [List.append_nil]; exact h
  cases hs with
  | call c O op hc => exact ⟨H.start L hc (names_call O op), .refl _⟩
  | get c cf k n hc => exact ⟨nil (H.silent hc rfl rfl rfl (fun ⟨op, a, b, d⟩ => ⟨op, a, b, d _⟩)), .refl _⟩
  | scan c cf k n hc => exact ⟨nil (H.silent hc rfl rfl rfl (fun ⟨op, a, b, d⟩ => ⟨op, a, b, d _⟩)), .refl _⟩
  | write c b n hc => exact ⟨nil (H.silent (p' := n ()) hc rfl rfl rfl (fun ⟨op, a, b, d⟩ => ⟨op, a, b, d⟩)), .refl _⟩
  | readLock c held n hc hw =>
    refine ⟨nil (H.silent hc rfl rfl rfl (fun ⟨op, a, b, d⟩ => ⟨op, a, b, ?_⟩)), .refl _⟩
    have hw' : (S.writer == some c) = false := by rw [hw]; rfl
    rw [hw'] at d ⊢
    exact d.2 _ (.refl _)
  | writeLock c n hc hw hr =>
    refine ⟨nil ⟨H.base, H.upper, ?_, ?_, H.rets⟩, .refl _⟩
    · intro i q hi
      rcases setAt_eq hi with ⟨rfl, hq⟩ | ⟨hne, hq⟩
      · cases hq
        obtain ⟨op, a, b, d⟩ := H.calls _ _ hc
        refine ⟨op, a, b, ?_⟩
        show Prog.Names _ _ (some i == some i) _ _
        rw [beq_self_eq_true]
        exact d.2 _ (.refl _)
      · exact (H.calls i q hq).mono (by rw [hw]; simp) (by show some c ≠ some i; intro e; cases e; exact hne rfl) (.refl _)
    · intro i hi e he
      rcases setAt_eq hi with ⟨_, hq⟩ | ⟨_, hq⟩
      · cases hq
      · exact H.unused i hq e he
  | setIndexed c ix n hc =>
    obtain ⟨op, a, b, d⟩ := H.calls _ _ hc
    obtain ⟨hw, hsub, hM, hn⟩ := d
    have hw : S.writer = some c := by simpa using hw
    refine ⟨nil ⟨H.base.trans hsub, ?_, ?_, ?_, fun i n a h1 h2 => hsub n (H.rets i n a h1 h2)⟩, hsub⟩
    · intro m hm
      rcases hM m hm with h1 | h1
      · exact H.upper m h1
      · exact Or.inr ⟨c, by rw [← h1]; exact a⟩
    · intro i q hi
      rcases setAt_eq hi with ⟨rfl, hq⟩ | ⟨hne, hq⟩
      · cases hq
        refine ⟨op, a, b, ?_⟩
        show Prog.Names _ _ (S.writer == some i) ix _
        rw [hw, beq_self_eq_true]; exact hn
      · have hne' : S.writer ≠ some i := by rw [hw]; intro e; cases e; exact hne rfl
        exact (H.calls i q hq).mono hne' hne' hsub
    · intro i hi e he
      rcases setAt_eq hi with ⟨_, hq⟩ | ⟨_, hq⟩
      · cases hq
      · exact H.unused i hq e he
  | unlock c r hc hw =>
    refine ⟨nil ⟨H.base, H.upper, ?_, H.unused, H.rets⟩, .refl _⟩
    intro i q hi
    by_cases hic : i = c
    · subst hic
      have hi : S.calls i = .running q := hi
      rw [hc] at hi
      cases hi
      obtain ⟨op, a, b, d⟩ := H.calls _ _ hc
      exact ⟨op, a, b, d⟩
    · exact (H.calls i q hi).mono (by rw [hw]; intro e; cases e; exact hic rfl) (by simp) (.refl _)
  | unlockRead c r hc hr => exact ⟨nil ⟨H.base, H.upper, H.calls, H.unused, H.rets⟩, .refl _⟩
  | ret c r hc hw hr =>
    refine ⟨⟨H.base, fun m hm => (H.upper m hm).imp id (fun ⟨d, hd⟩ => ⟨d, List.mem_append_left _ hd⟩), ?_, ?_, ?_⟩, .refl _⟩
    · intro i q hi
      rcases setAt_eq hi with ⟨_, hq⟩ | ⟨_, hq⟩
      · cases hq
      · obtain ⟨op, a, b, d⟩ := H.calls i q hq
        refine ⟨op, List.mem_append_left _ a, fun op' hm => ?_, d⟩
        rcases List.mem_append.1 hm with hm | hm
        · exact b op' hm
        · simp at hm
    · intro i hi e he
      rcases setAt_eq hi with ⟨_, hq⟩ | ⟨hne, hq⟩
      · cases hq
      · rcases List.mem_append.1 he with he | he
        · exact H.unused i hq e he
        · rw [List.mem_singleton] at he
          subst he
          exact fun e => hne e.symm
    · intro i n a h1 h2
      have h1' : Ev.call i (.indexProperty n) ∈ h := by
        rcases List.mem_append.1 h1 with h1 | h1
        · exact h1
        · simp at h1
      rcases List.mem_append.1 h2 with h2 | h2
      · exact H.rets i n a h1' h2
      · simp at h2
        obtain ⟨rfl, rfl⟩ := h2
        obtain ⟨op, _, b, d⟩ := H.calls _ _ hc
        exact d n a (b _ h1').symm rfl

theorem NamesInv.faultyStep {s : Rocks} {h : List Ev} {S S' : Conc} {e : List Ev} (H : NamesInv s h S) (L : LockInv S)
    (hs : Conc.FaultyStep X S e S') : NamesInv s (h ++ e) S' ∧ Sub S.db.indexed S'.db.indexed := by
  have nil : ∀ {T : Conc}, NamesInv s h T → NamesInv s (h ++ []) T := fun h => by rw [List.append_nil]; exact h
  have err : ∀ (op : Op) ix (f : Fault), Post op ix (.error f) := fun op ix f n a _ h => (nomatch h)
  cases hs with
  | fine hs => exact H.step L hs
  | getFails c cf k n hc => exact ⟨nil (H.silent (p' := .done (.error ioFault)) hc rfl rfl rfl (fun ⟨op, a, b, _⟩ => ⟨op, a, b, err _ _ _⟩)), .refl _⟩
  | scanFails c i cf lo n hc => exact ⟨nil (H.silent hc rfl rfl rfl (fun ⟨op, a, b, d⟩ => ⟨op, a, b, d _⟩)), .refl _⟩
  | writeFails c b n hc => exact ⟨nil (H.silent (p' := .done (.error ioFault)) hc rfl rfl rfl (fun ⟨op, a, b, _⟩ => ⟨op, a, b, err _ _ _⟩)), .refl _⟩
  | flushFails c hc => exact ⟨H.start L hc (fun ix => err _ _ _), .refl _⟩

theorem NamesInv.exec {s : Rocks} {h : List Ev} {S : Conc} (hx : FaultyExec X s h S) : NamesInv s h S := by
  induction hx with
  | nil => exact ⟨.refl _, fun m hm => Or.inl hm, (fun c p h => by cases h), (fun c _ e he => (nomatch he)), fun c n a h => (nomatch h)⟩
  | snoc hx hs ih => exact (ih.faultyStep (LockInv.exec hx) hs).1

/-! ### Parts of executions -/

variable {T : Conc → List Ev → Conc → Prop}

/-- Steps from a state on. -/
inductive Steps (T : Conc → List Ev → Conc → Prop) (R : Conc) : List Ev → Conc → Prop
  | nil : Steps T R [] R
  | snoc {h : List Ev} {S S' : Conc} {e : List Ev} : Steps T R h S → T S e S' → Steps T R (h ++ e) S'

theorem step_short {S S' : Conc} {e : List Ev} (hs : Conc.FaultyStep X S e S') : e = [] ∨ ∃ x, e = [x] := by
  cases hs with
  | fine hs => cases hs <;> simp
  | _ => simp

theorem Steps.split {A : Conc} {h a b : List Ev} {S : Conc} (hT : ∀ S e S', T S e S' → Conc.FaultyStep X S e S')
    (hx : Steps T A h S) (hh : h = a ++ b) : ∃ R, Steps T A a R ∧ Steps T R b S := by
  induction hx generalizing b with
  | nil =>
    have := List.append_eq_nil_iff.1 hh.symm
    obtain ⟨rfl, rfl⟩ := this
    exact ⟨_, .nil, .nil⟩
  | @snoc h S S' e hx hs ih =>
    rcases step_short (hT _ _ _ hs) with rfl | ⟨x, rfl⟩
    · rw [List.append_nil] at hh
      obtain ⟨R, h1, h2⟩ := ih hh
      refine ⟨R, h1, ?_⟩
      have := h2.snoc hs
      rwa [List.append_nil] at this
    · rcases List.eq_nil_or_concat b with rfl | ⟨b', y, rfl⟩
      · rw [List.append_nil] at hh
        subst hh
        exact ⟨S', hx.snoc hs, .nil⟩
      · rw [List.concat_eq_append, ← List.append_assoc] at hh
        obtain ⟨h1, h2⟩ := List.append_inj' hh rfl
        obtain ⟨R, h3, h4⟩ := ih h1
        exact ⟨R, h3, by rw [List.concat_eq_append, ← h2]; exact h4.snoc hs⟩

theorem Steps.ofFaulty {s : Rocks} {h : List Ev} {S : Conc} (hx : Conc.FaultyExec X s h S) :
    Steps (Conc.FaultyStep X) (.init s) h S := by
  induction hx with
  | nil => exact .nil
  | snoc _ hs ih => exact ih.snoc hs

theorem Steps.ofExec {s : Rocks} {h : List Ev} {S : Conc} (hx : Conc.Exec X s h S) : Steps (Conc.Step X) (.init s) h S := by
  induction hx with
  | nil => exact .nil
  | snoc _ hs ih => exact ih.snoc hs

theorem Steps.faulty {s : Rocks} {h : List Ev} {S : Conc} (hT : ∀ S e S', T S e S' → Conc.FaultyStep X S e S')
    (hx : Steps T (.init s) h S) : Conc.FaultyExec X s h S := by
  generalize hA : Conc.init s = A at hx
  induction hx with
  | nil => subst hA; exact .nil
  | snoc _ hs ih => exact ih.snoc (hT _ _ _ hs)

/-- A step keeps used identifiers of calls used. -/
theorem used_step {S S' : Conc} {e : List Ev} (hs : Conc.FaultyStep X S e S') :
    (∀ c, S.calls c ≠ .unused → S'.calls c ≠ .unused) ∧
    ∀ c op, Ev.call c op ∈ e → e = [Ev.call c op] ∧ S.calls c = .unused ∧ S'.calls c ≠ .unused := by
  have set : ∀ (i : Nat) (x : RCall), x ≠ .unused → ∀ c, S.calls c ≠ .unused → setAt S.calls i x c ≠ .unused := by
    intro i x hx c hc hs
    rcases setAt_eq hs with ⟨_, h⟩ | ⟨_, h⟩
    · exact hx h
    · exact hc h
  cases hs with
  | fine hs => cases hs with
    | call i O op' hu =>
      refine ⟨set i _ (by intro h; cases h), fun c op h => ?_⟩
      simp at h
      obtain ⟨rfl, rfl⟩ := h
      exact ⟨rfl, hu, by simp [setAt]⟩
    | unlock _ _ _ _ => exact ⟨fun c h => h, fun c op h => (nomatch h)⟩
    | unlockRead _ _ _ _ => exact ⟨fun c h => h, fun c op h => (nomatch h)⟩
    | ret i _ _ _ _ => exact ⟨set i _ (by intro h; cases h), fun c op h => by simp at h⟩
    | _ => exact ⟨set _ _ (by intro h; cases h), fun c op h => (nomatch h)⟩
  | flushFails i hu =>
    refine ⟨set i _ (by intro h; cases h), fun c op h => ?_⟩
    simp at h
    obtain ⟨rfl, rfl⟩ := h
    exact ⟨rfl, hu, by simp [setAt]⟩
  | _ => exact ⟨set _ _ (by intro h; cases h), fun c op h => (nomatch h)⟩

/-- No identifier of a call is used twice, and not after it was used. -/
theorem Steps.fresh {R S : Conc} {h : List Ev} (hT : ∀ S e S', T S e S' → Conc.FaultyStep X S e S') (hx : Steps T R h S) :
    (∀ c, R.calls c ≠ .unused → S.calls c ≠ .unused) ∧
    (∀ c op, Ev.call c op ∈ h → R.calls c = .unused ∧ S.calls c ≠ .unused) ∧
    ∀ c op op', Ev.call c op ∈ h → Ev.call c op' ∈ h → op = op' := by
  induction hx with
  | nil => exact ⟨fun c h => h, fun c op h => (nomatch h), fun c op op' h => (nomatch h)⟩
  | @snoc h S S' e hx hs ih =>
    obtain ⟨i1, i2, i3⟩ := ih
    obtain ⟨s1, s2⟩ := used_step (hT _ _ _ hs)
    refine ⟨fun c h => s1 c (i1 c h), fun c op hm => ?_, fun c op op' hm hm' => ?_⟩
    · rcases List.mem_append.1 hm with hm | hm
      · exact ⟨(i2 c op hm).1, s1 c (i2 c op hm).2⟩
      · obtain ⟨_, hu, hu'⟩ := s2 c op hm
        exact ⟨Classical.byContradiction (fun h => i1 c h hu), hu'⟩
    · rcases List.mem_append.1 hm with hm | hm <;> rcases List.mem_append.1 hm' with hm' | hm'
      · exact i3 c op op' hm hm'
      · exact absurd (s2 c op' hm').2.1 (i2 c op hm).2
      · exact absurd (s2 c op hm).2.1 (i2 c op' hm').2
      · have := (s2 c op hm).1
        rw [this] at hm'
        simp at hm'
        exact hm'.symm

variable {V : Json → Prop}

/-- The set of indexed names only grows. -/
theorem Steps.grows {s : Rocks} {h h' : List Ev} {R S : Conc} (hT : ∀ S e S', T S e S' → Conc.FaultyStep X S e S')
    (hx : Conc.FaultyExec X s h R) (hs : Steps T R h' S) : Conc.FaultyExec X s (h ++ h') S ∧ Sub R.db.indexed S.db.indexed := by
  induction hs with
  | nil => exact ⟨by rw [List.append_nil]; exact hx, .refl _⟩
  | @snoc h' S S' e _ hs ih =>
    refine ⟨by rw [← List.append_assoc]; exact ih.1.snoc (hT _ _ _ hs), ih.2.trans ?_⟩
    exact ((NamesInv.exec ih.1).faultyStep (LockInv.exec ih.1) (hT _ _ _ hs)).2

/-- What a call made after `h1` does. -/
theorem mild_call {s : Rocks} {h1 h2 : List Ev} {S R : Conc} (hT : ∀ S e S', T S e S' → Conc.FaultyStep X S e S')
    (hw : Sound X V s.kv) (hx : Conc.FaultyExec X s h1 R) (hs : Steps T R h2 S) (hv : OkCalls V (h1 ++ h2)) {d : Nat} {op : Op}
    (hd : Ev.call d op ∈ h2) (P : Perms X) (hP : P.Reads V) (hn : ∀ ix, Sub R.db.indexed ix → P.names ix) (hp : Permits P op)
    (hf : P.err .datastore ∨ ∀ S e S', T S e S' → Conc.Step X S e S') {f : Fault} (hr : Ev.ret d (.error f) ∈ h2) :
    Mild P f := by
  have fr := hs.fresh hT
  let Ps : Nat → Perms X := fun c => if c = d then P else Perms.lax X
  have rd : ∀ c, (Ps c).Reads V := by
    intro c
    show (if c = d then P else Perms.lax X).Reads V
    split
    · exact hP
    · exact fun _ _ => trivial
  have start : CalmInv X V Ps [] R := by
    have H := CalmInv.exec hw hx (fun c op h => hv c op (List.mem_append_left _ h))
    refine ⟨H.sound, fun c p hc => ?_, fun c f h => (nomatch h), H.log⟩
    have : c ≠ d := by
      rintro rfl
      rw [(fr.2.1 c op hd).1] at hc; cases hc
    show Tame (if c = d then P else Perms.lax X) V p
    rw [if_neg this]
    exact H.calls c p hc
  have all : ∀ {h : List Ev} {S : Conc}, Steps T R h S → (∀ op', Ev.call d op' ∈ h → op' = op) → OkCalls V h →
      CalmInv X V Ps h S := by
    intro h S hs
    induction hs with
    | nil => exact fun _ _ => start
    | @snoc h S S' e hs ht ih =>
      intro hu hv
      have H := ih (fun op' h => hu op' (List.mem_append_left _ h)) (fun c op h => hv c op (List.mem_append_left _ h))
      have hsub := (hs.grows hT hx).2
      have nm : ∀ c p, S.calls c = .running p → (Ps c).names S.db.indexed := by
        intro c p _
        show (if c = d then P else Perms.lax X).names _
        split
        · exact hn _ hsub
        · trivial
      have pm : ∀ c op', Ev.call c op' ∈ e → Permits (Ps c) op' := by
        intro c op' hm
        show Permits (if c = d then P else Perms.lax X) _
        split
        · next hc => subst hc; rw [hu op' (List.mem_append_right _ hm)]; exact hp
        · exact permits_lax op'
      have hv' : OkCalls V e := fun c op h => hv c op (List.mem_append_right _ h)
      rcases hf with hf | hf
      · refine H.faultyStep (hT _ _ _ ht) (fun c => ?_) rd nm pm hv'
        show (if c = d then P else Perms.lax X).err _
        split
        · exact hf
        · exact fun h => by cases h
      · exact H.step (hf _ _ _ ht) rd nm pm hv'
  have := (all hs (fun op' h => fr.2.2 d op' op h hd) (fun c op h => hv c op (List.mem_append_right _ h))).rets d f hr
  have e : Ps d = P := if_pos rfl
  rwa [e] at this

/-! ### Properties never indexed -/

/-- The program does not succeed as long as `m` is not indexed. -/
def Fails {α : Type} (m : Identifier) (p : Prog α) : Prop := p.AllIf (fun ix => ¬ Has m ix) (fun _ => True) (fun _ => False)

theorem Fails.then {α β : Type} {m : Identifier} {p : Prog α} {f : α → Prog β} (h : Fails m p) : Fails m (p >>= f) :=
  AllIf.bind h (fun _ h => h.elim)

theorem fails_indexed {α : Type} (m : Identifier) (p : Prog (DynIter α)) : Fails m (indexedP (ifIndexed m p)) := by
  intro ix hix
  show Prog.AllIf _ _ _ (Prog.bind (if _ then _ else _) _)
  rw [if_neg (show ¬ SMap.contains ix m = true from hix)]
  trivial

theorem fails_runStage {m : Identifier} {inner : Query} {r : Prog (List Output)} {stage : Output → Prog Output}
    (h : Fails m r ∨ r.Reading ∧ ∀ o, Fails m (stage o)) : Fails m (runStageP inner r stage) := by
  rcases h with h | ⟨hr, hs⟩
  · exact h.then
  · refine Reading.thenIf hr (fun o => ?_)
    cases h : vecPop o with
    | none => trivial
    | some x => exact (hs x.2).then

theorem fails_stageFilter {m : Identifier} {es : Prog (Option (DynIter Edge))} {vs : Prog (Option (DynIter Uuid))} {keep : Bool}
    (h1 : Fails m (indexedP es)) (h2 : Fails m (indexedP vs)) (o : Output) : Fails m (stageFilterP es vs keep o) := by
  cases o with
  | edges l => exact h1.then
  | vertices l => exact h2.then
  | _ => trivial

theorem fails_query {m : Identifier} (q : Query) (h : m ∈ q.lookups) (out : List Output) : Fails m (queryP X q out) := by
  induction q generalizing out with
  | allVertex => cases h
  | rangeVertex => cases h
  | specificVertex => cases h
  | allEdge => cases h
  | specificEdge => cases h
  | vertexWithPropertyPresence n =>
    obtain rfl : m = n := by simpa [Query.lookups] using h
    exact (fails_indexed m _).then
  | vertexWithPropertyValue n v =>
    obtain rfl : m = n := by simpa [Query.lookups] using h
    exact (fails_indexed m _).then
  | edgeWithPropertyPresence n =>
    obtain rfl : m = n := by simpa [Query.lookups] using h
    exact (fails_indexed m _).then
  | edgeWithPropertyValue n v =>
    obtain rfl : m = n := by simpa [Query.lookups] using h
    exact (fails_indexed m _).then
  | pipe i d l t ih => exact fails_runStage (.inl (ih h out))
  | pipeProperty i n ih => exact fails_runStage (.inl (ih h out))
  | pipeWithPropertyPresence i n ex ih =>
    rcases List.mem_cons.1 h with rfl | h
    · exact fails_runStage (.inr ⟨rd_query i out, fails_stageFilter (fails_indexed m _) (fails_indexed m _)⟩)
    · exact fails_runStage (.inl (ih h out))
  | pipeWithPropertyValue i n v eq ih =>
    rcases List.mem_cons.1 h with rfl | h
    · exact fails_runStage (.inr ⟨rd_query i out, fails_stageFilter (fails_indexed m _) (fails_indexed m _)⟩)
    · exact fails_runStage (.inl (ih h out))
  | incl i ih => exact (ih h out).then
  | count i ih =>
    cases i with
    | allVertex => cases h
    | allEdge => cases h
    | _ => exact fails_runStage (.inl (ih h out))

theorem fails_call {m : Identifier} (O : IdentOrder) (op : Op) (h : m ∈ op.lookups) : Fails m (callProg X O op) := by
  cases op with
  | get q => exact (fails_query q h []).then
  | delete q => exact Fails.then (Fails.then (Fails.then (fails_query q h [])))
  | setProperties q n v => exact Fails.then (Fails.then (Fails.then (fails_query q h [])))
  | _ => cases h

/-- Calls that look up `m` have not succeeded. -/
structure NeverInv (m : Identifier) (h : List Ev) (S : Conc) : Prop where
  calls : ∀ c op p, Ev.call c op ∈ h → m ∈ op.lookups → S.calls c = .running p → Fails m p
  rets : ∀ c op a, Ev.call c op ∈ h → m ∈ op.lookups → Ev.ret c (.ok a) ∉ h

theorem NeverInv.silent {m : Identifier} {h : List Ev} {S S' : Conc} (H : NeverInv m h S) {c : Nat} {p p' : Prog Reply}
    (hc : S.calls c = .running p) (h1 : S'.calls = setAt S.calls c (.running p')) (hp : Fails m p → Fails m p') :
    NeverInv m (h ++ []) S' := by
  rw [List.append_nil]
  refine ⟨fun i op q hm hl hi => ?_, H.rets⟩
  rw [h1] at hi
  rcases setAt_eq hi with ⟨e, hq⟩ | ⟨_, hq⟩
  · cases hq; subst e; exact hp (H.calls _ op _ hm hl hc)
  · exact H.calls i op q hm hl hq

theorem NeverInv.start {m : Identifier} {h : List Ev} {S : Conc} (H : NeverInv m h S) {c : Nat} {p : Prog Reply} {op : Op}
    (hu : ∀ e ∈ h, ¬ About c e) (hp : m ∈ op.lookups → Fails m p) :
    NeverInv m (h ++ [.call c op]) { S with calls := setAt S.calls c (.running p) } := by
  constructor
  · intro i op' q hm hl hi
    rcases List.mem_append.1 hm with hm' | hm
    · rcases setAt_eq hi with ⟨rfl, _⟩ | ⟨_, hq⟩
      · exact (hu _ hm' rfl).elim
      · exact H.calls i op' q hm' hl hq
    · simp at hm
      obtain ⟨rfl, rfl⟩ := hm
      rcases setAt_eq hi with ⟨_, hq⟩ | ⟨hne, _⟩
      · cases hq; exact hp hl
      · exact absurd rfl hne
  · intro i op' a hm hl hr
    have hr' : Ev.ret i (.ok a) ∈ h := by
      rcases List.mem_append.1 hr with hr | hr
      · exact hr
      · simp at hr
    rcases List.mem_append.1 hm with hm | hm
    · exact H.rets i op' a hm hl hr'
    · simp at hm
      obtain ⟨rfl, rfl⟩ := hm
      exact hu _ hr' rfl

theorem NeverInv.exec {m : Identifier} {s : Rocks} {h : List Ev} {S : Conc} (hx : Conc.FaultyExec X s h S)
    (hs : s.indexed.contains m = false) (hn : ∀ c, Ev.call c (.indexProperty m) ∉ h) : NeverInv m h S := by
  induction hx with
  | nil => exact ⟨fun c op p h => (nomatch h), fun c op a h => (nomatch h)⟩
  | @snoc h S S' e hx ht ih =>
    have H := ih (fun c hc => hn c (List.mem_append_left _ hc))
    have N := NamesInv.exec hx
    have no : ¬ Has m S.db.indexed := by
      intro hm
      rcases N.upper m hm with h1 | ⟨c, h1⟩
      · rw [hs] at h1; cases h1
      · exact hn c (List.mem_append_left _ h1)
    have err : Fails m (Prog.done (.error ioFault) : Prog Reply) := trivial
    cases ht with
    | fine ht => cases ht with
      | call c O op hc => exact H.start (N.unused c hc) (fails_call O op)
      | get c cf k n hc => exact H.silent hc rfl (fun h => h _)
      | scan c cf k n hc => exact H.silent hc rfl (fun h => h _)
      | write c b n hc => exact H.silent (p' := n ()) hc rfl (fun h => h.2)
      | readLock c held n hc hw => exact H.silent hc rfl (fun h => h _ no)
      | writeLock c n hc hw hr => exact H.silent hc rfl (fun h => h _ no)
      | setIndexed c ix n hc => exact H.silent (p' := n ()) hc rfl (fun h => h.2)
      | unlock c r hc hw => exact ⟨by rw [List.append_nil]; exact H.calls, by rw [List.append_nil]; exact H.rets⟩
      | unlockRead c r hc hr => exact ⟨by rw [List.append_nil]; exact H.calls, by rw [List.append_nil]; exact H.rets⟩
      | ret c r hc hw hr =>
        constructor
        · intro i op q hm hl hi
          rcases List.mem_append.1 hm with hm | hm
          · rcases setAt_eq hi with ⟨_, hq⟩ | ⟨_, hq⟩
            · cases hq
            · exact H.calls i op q hm hl hq
          · simp at hm
        · intro i op a hm hl hr
          rcases List.mem_append.1 hm with hm' | hm
          · rcases List.mem_append.1 hr with hr | hr
            · exact H.rets i op a hm' hl hr
            · simp at hr
              obtain ⟨rfl, rfl⟩ := hr
              exact H.calls i op _ hm' hl hc
          · simp at hm
    | getFails c cf k n hc => exact H.silent hc rfl (fun _ => err)
    | scanFails c i cf lo n hc => exact H.silent hc rfl (fun h => h _)
    | writeFails c b n hc => exact H.silent hc rfl (fun _ => err)
    | flushFails c hc => exact H.start (N.unused c hc) (fun _ => err)

end Rocks
end IndraDB
