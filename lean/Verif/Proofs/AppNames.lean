import Verif.Spec.AppNames
import Verif.Proofs.RocksNames
import Verif.Proofs.AppProgress
import Verif.Proofs.RocksFill
/-
The set of indexed names in processes that use a RocksDB datastore through transactions and library calls.
-/
set_option linter.unusedSimpArgs false
namespace IndraDB

namespace Prog
variable {α β : Type} {M : Identifier → Prop}

theorem Names.map {Q : SSet Identifier → Res α → Prop} {Q' : SSet Identifier → Res β → Prop} {f : α → β} {p : Prog α} {w : Bool}
    {ix : SSet Identifier} (h : p.Names M Q w ix) (hok : ∀ ix a, Q ix (.ok a) → Q' ix (.ok (f a)))
    (herr : ∀ ix e, Q' ix (.error e)) : (p >>= fun a => (Pure.pure (f a) : Prog β)).Names M Q' w ix := by
  show (p.bind _).Names M Q' w ix
  induction p generalizing w ix with
  | done r => cases r with
    | ok a => exact hok ix a h
    | error e => exact herr ix e
  | get cf k n ih => exact fun r => ih r (h r)
  | scan cf k n ih => exact fun r => ih r (h r)
  | write b n ih => exact ih () h
  | readLock _ n ih => exact ⟨h.1, fun x hx => ih x (h.2 x hx)⟩
  | writeLock n ih => exact ⟨h.1, fun x hx => ih x (h.2 x hx)⟩
  | setIndexed x n ih => exact ⟨h.1, h.2.1, h.2.2.1, ih () h.2.2.2⟩

theorem Once.allIf {I : SSet Identifier → Prop} {p : Prog α} (h : p.Once) : p.AllIf I (fun _ => True) (fun _ => True) := by
  induction p with
  | done r => cases r <;> trivial
  | get cf k n ih => exact fun r => ih r (h r)
  | scan cf k n ih => exact fun r => ih r (h r)
  | write b n ih =>
    obtain ⟨a, ha⟩ := h
    refine ⟨trivial, ?_⟩
    rw [ha]; trivial
  | readLock _ n ih => exact fun x _ => ih x (h x)
  | writeLock n ih => exact h.elim
  | setIndexed x n ih => exact h.elim

end Prog

namespace Rocks
open Prog LockConc
variable {X : Cfg} {io : Bool}

/-- `index_property` of a transaction is that of the database, up to what it returns. -/
theorem access_index (O : IdentOrder) (n : Identifier) :
    accessProg X O (.write (.indexProperty n)) = callProg X O (.indexProperty n) >>= fun _ => (pure (.txn .unit) : Prog Answer) := by
  show Prog.bind (Prog.bind (indexProperty X O n) _) _ = Prog.bind (Prog.bind (indexProperty X O n) _) _
  rw [Prog.bind_assoc', Prog.bind_assoc']
  rfl

theorem once_access (O : IdentOrder) (a : Access) (h : ∀ n, ¬ a.Indexes n) : (accessProg X O a).Once := by
  cases hr : a.isRead with
  | true => exact (rd_access O a hr).toOnce
  | false => cases a with
    | lib op => exact (once_call O op (fun n hn => h n hn)).map _
    | write w => cases w with
      | deleteVertices vs => exact ((once_deleteVertices vs).map _).map _
      | deleteEdges vs => exact ((once_deleteEdges vs).map _).map _
      | deleteVertexProperties vs => exact ((once_deleteVertexProperties vs).map _).map _
      | deleteEdgeProperties vs => exact ((once_deleteEdgeProperties vs).map _).map _
      | sync => trivial
      | createVertex v => exact ((once_createVertex v).map _).map _
      | createEdge v => exact ((once_createEdge v).map _).map _
      | bulkInsert l => exact ((once_bulkInsert l).map _).map _
      | indexProperty n => exact absurd rfl (h n)
      | setVertexProperties ids n v => exact ((once_setVertexProperties ids n v).map _).map _
      | setEdgeProperties ids n v => exact ((once_setEdgeProperties ids n v).map _).map _
    | _ => cases hr

namespace App

/-- What the end of a call says about the set. -/
def Post (a : Access) (ix : SSet Identifier) (r : Res Answer) : Prop := ∀ n x, a.Indexes n → r = .ok x → ix.contains n = true

theorem Post.mono (a : Access) (ix ix' : SSet Identifier) (r : Res Answer) (hs : Sub ix ix') (h : Post a ix r) : Post a ix' r :=
  fun n x h1 h2 => hs n (h n x h1 h2)

theorem Post.err (a : Access) (ix : SSet Identifier) (f : Fault) : Post a ix (.error f) := fun _ _ _ h => nomatch h

theorem names_access (O : IdentOrder) (a : Access) (ix : SSet Identifier) :
    (accessProg X O a).Names a.Indexes (Post a) false ix := by
  by_cases h : ∃ n, a.Indexes n
  · obtain ⟨n, hn⟩ := h
    have key := names_indexProperty (X := X) O n ix
    have ok : ∀ (b : Access), (∀ m, b.Indexes m ↔ m = n) → ∀ ix (r : Reply), Rocks.Post (.indexProperty n) ix (.ok r) → ∀ x : Answer,
        Post b ix (.ok x) := by
      intro b hb ix r hp x m _ hm _
      rw [(hb m).1 hm]
      exact hp n r rfl rfl
    cases a with
    | lib op =>
      have hn : op = .indexProperty n := hn
      subst hn
      have e : (Access.lib (.indexProperty n)).Indexes = (· = n) := by
        funext m
        exact propext ⟨fun h => by cases (show Op.indexProperty n = .indexProperty m from h); rfl, fun h => by subst h; rfl⟩
      rw [e]
      exact key.map (fun ix r hp => ok _ (fun m => by rw [e]) ix r hp _) (fun ix e => Post.err _ _ _)
    | write w =>
      have hn : w = .indexProperty n := hn
      subst hn
      have e : (Access.write (.indexProperty n)).Indexes = (· = n) := by
        funext m
        exact propext ⟨fun h => by cases (show TxnCall.indexProperty n = .indexProperty m from h); rfl, fun h => by subst h; rfl⟩
      rw [e, access_index]
      exact key.map (fun ix r hp => ok _ (fun m => by rw [e]) ix r hp _) (fun ix e => Post.err _ _ _)
    | _ => exact hn.elim
  · exact (once_access O a (fun n hn => h ⟨n, hn⟩)).names (fun ix r n x e _ => absurd ⟨n, e⟩ h) ix

/-! ### Executions -/

/-- What is known of task `c` inside call `a`, of which `p` remains. -/
def Runs (h : List AppEv) (S : App) (c : Nat) (a : Access) (p : Prog Answer) : Prop :=
  AppEv.enter c a ∈ h ∧ p.Names a.Indexes (Post a) (S.writer == some c) S.db.indexed

structure NamesInv (s : Rocks) (h : List AppEv) (S : App) : Prop where
  base : Sub s.indexed S.db.indexed
  upper : ∀ m, S.db.indexed.contains m = true → s.indexed.contains m = true ∨ ∃ c a, AppEv.enter c a ∈ h ∧ a.Indexes m
  inside : ∀ c a p k, S.tasks c = .inside a p k → Runs h S c a p
  leaves : ∀ m, IndexedBy h m → S.db.indexed.contains m = true

theorem Runs.more {h : List AppEv} {S : App} {c : Nat} {a : Access} {p : Prog Answer} (H : Runs h S c a p) (e : List AppEv) :
    Runs (h ++ e) S c a p := ⟨List.mem_append_left _ H.1, H.2⟩

theorem Runs.mono {h : List AppEv} {S S' : App} {c : Nat} {a : Access} {p : Prog Answer} (H : Runs h S c a p) (hw : S.writer ≠ some c)
    (hw' : S'.writer ≠ some c) (hs : Sub S.db.indexed S'.db.indexed) : Runs h S' c a p := by
  obtain ⟨h1, h3⟩ := H
  refine ⟨h1, ?_⟩
  have e : (S.writer == some c) = false := by simpa using hw
  have e' : (S'.writer == some c) = false := by simpa using hw'
  rw [e] at h3
  rw [e']
  exact h3.mono (Post.mono a) hs

theorem NamesInv.silent {s : Rocks} {h : List AppEv} {S S' : App} (H : NamesInv s h S) {c : Nat} {a : Access} {p p' : Prog Answer}
    {k : Except Error Answer → Task}
    (hc : S.tasks c = .inside a p k) (h1 : S'.tasks = setAt S.tasks c (.inside a p' k)) (h2 : S'.writer = S.writer)
    (h3 : S'.db.indexed = S.db.indexed) (hp : Runs h S c a p → Runs h S c a p') : NamesInv s (h ++ []) S' := by
  rw [List.append_nil]
  have same : ∀ i b q, Runs h S i b q → Runs h S' i b q := by
    intro i b q ⟨h4, h5⟩
    exact ⟨h4, by rw [h2, h3]; exact h5⟩
  refine ⟨by rw [h3]; exact H.base, by rw [h3]; exact H.upper, ?_, by rw [h3]; exact H.leaves⟩
  intro i b q j hi
  rw [h1] at hi
  rcases setAt_eq hi with ⟨e, hq⟩ | ⟨_, hq⟩
  · cases hq; subst e; exact same _ _ _ (hp (H.inside _ _ _ _ hc))
  · exact same _ _ _ (H.inside i b q j hq)

/-- A task outside a call makes a step. -/
theorem NamesInv.outside {s : Rocks} {h e : List AppEv} {S S' : App} (H : NamesInv s h S) {c : Nat} {t : TaskAt}
    (h1 : S'.tasks = setAt S.tasks c t) (h2 : S'.writer = S.writer) (h3 : S'.db = S.db)
    (ht : ∀ a p k, t = .inside a p k → Runs (h ++ e) S c a p)
    (hl : ∀ c a x m, AppEv.leave c a (.ok x) ∈ e → a.Indexes m → S.db.indexed.contains m = true) : NamesInv s (h ++ e) S' := by
  refine ⟨by rw [h3]; exact H.base, ?_, ?_, ?_⟩
  · rw [h3]
    intro m hm
    exact (H.upper m hm).imp id (fun ⟨c, a, h4, h5⟩ => ⟨c, a, List.mem_append_left _ h4, h5⟩)
  · intro i b q j hi
    rw [h1] at hi
    have same : Runs (h ++ e) S i b q → Runs (h ++ e) S' i b q := fun ⟨h4, h5⟩ => ⟨h4, by rw [h2, h3]; exact h5⟩
    rcases setAt_eq hi with ⟨rfl, hq⟩ | ⟨_, hq⟩
    · exact same (ht _ _ _ hq)
    · exact same ((H.inside i b q j hq).more e)
  · rw [h3]
    rintro m ⟨i, b, x, hm, hb⟩
    rcases List.mem_append.1 hm with hm | hm
    · exact H.leaves m ⟨i, b, x, hm, hb⟩
    · exact hl i b x m hm hb

theorem NamesInv.step {s : Rocks} {h e : List AppEv} {S S' : App} (H : NamesInv s h S) (L : LockInv S)
    (hs : Step X io S e S') : NamesInv s (h ++ e) S' ∧ Sub S.db.indexed S'.db.indexed := by
  have free : ∀ c a k, S.tasks c = .between (.call a k) → (S.writer == some c) = false := by
    intro c a k hc
    have := (L.free (c := c) (fun a p k h => by rw [hc] at h; cases h)).1
    simpa using this
  have none : ∀ c a x m, AppEv.leave c a (.ok x) ∈ ([] : List AppEv) → a.Indexes m → S.db.indexed.contains m = true :=
    fun _ _ _ _ h => nomatch h
  cases hs with
  | start c t hc =>
    exact ⟨H.outside rfl rfl rfl (fun _ _ _ h => by cases h) (fun c a x m h => by simp at h), .refl _⟩
  | stop c t hc _ =>
    exact ⟨H.outside rfl rfl rfl (fun _ _ _ h => by cases h) (fun c a x m h => by simp at h), .refl _⟩
  | enter c O a k hc =>
    refine ⟨H.outside rfl rfl rfl (fun _ _ _ h => ?_) (fun c a x m h => by simp at h), .refl _⟩
    cases h
    exact ⟨by simp, by rw [free c a k hc]; exact names_access O a _⟩
  | flushFails c a k _ hc _ =>
    refine ⟨H.outside rfl rfl rfl (fun _ _ _ h => ?_) (fun c a x m h => by simp at h), .refl _⟩
    cases h
    exact ⟨by simp, Post.err _ _ _⟩
  | get c a k cf b n hc => exact ⟨H.silent hc rfl rfl rfl (fun ⟨d, f⟩ => ⟨d, f _⟩), .refl _⟩
  | getFails c a k cf b n _ hc => exact ⟨H.silent hc rfl rfl rfl (fun ⟨d, f⟩ => ⟨d, Post.err _ _ _⟩), .refl _⟩
  | scan c a k cf lo n hc => exact ⟨H.silent hc rfl rfl rfl (fun ⟨d, f⟩ => ⟨d, f _⟩), .refl _⟩
  | scanFails c i a k cf lo n _ hc => exact ⟨H.silent hc rfl rfl rfl (fun ⟨d, f⟩ => ⟨d, f _⟩), .refl _⟩
  | write c a k b n hc => exact ⟨H.silent (p' := n ()) hc rfl rfl rfl (fun ⟨d, f⟩ => ⟨d, f⟩), .refl _⟩
  | writeFails c a k b n _ hc => exact ⟨H.silent hc rfl rfl rfl (fun ⟨d, f⟩ => ⟨d, Post.err _ _ _⟩), .refl _⟩
  | readLock c a k held n hc hw =>
    refine ⟨H.silent hc rfl rfl rfl (fun ⟨d, f⟩ => ⟨d, ?_⟩), .refl _⟩
    have hw' : (S.writer == some c) = false := by rw [hw]; rfl
    rw [hw'] at f ⊢
    exact f.2 _ (.refl _)
  | writeLock c a k n hc hw hr =>
    rw [List.append_nil]
    refine ⟨⟨H.base, H.upper, ?_, H.leaves⟩, .refl _⟩
    intro i b q j hi
    rcases setAt_eq hi with ⟨rfl, hq⟩ | ⟨hne, hq⟩
    · cases hq
      obtain ⟨d, f⟩ := H.inside _ _ _ _ hc
      refine ⟨d, ?_⟩
      show Prog.Names _ _ (some i == some i) _ _
      rw [beq_self_eq_true]
      exact f.2 _ (.refl _)
    · exact (H.inside i b q j hq).mono (by rw [hw]; simp) (by show some c ≠ some i; intro e; cases e; exact hne rfl) (.refl _)
  | setIndexed c a k ix n hc =>
    rw [List.append_nil]
    obtain ⟨d, hw, hsub, hM, hn⟩ := H.inside _ _ _ _ hc
    have hw : S.writer = some c := by simpa using hw
    refine ⟨⟨H.base.trans hsub, ?_, ?_, fun m hm => hsub m (H.leaves m hm)⟩, hsub⟩
    · intro m hm
      rcases hM m hm with h1 | h1
      · exact H.upper m h1
      · exact Or.inr ⟨c, a, d, h1⟩
    · intro i b q j hi
      rcases setAt_eq hi with ⟨rfl, hq⟩ | ⟨hne, hq⟩
      · cases hq
        refine ⟨d, ?_⟩
        show Prog.Names _ _ (S.writer == some i) ix _
        rw [hw, beq_self_eq_true]; exact hn
      · have hne' : S.writer ≠ some i := by rw [hw]; intro e; cases e; exact hne rfl
        exact (H.inside i b q j hq).mono hne' hne' hsub
  | unlock c a k r hc hw =>
    rw [List.append_nil]
    refine ⟨⟨H.base, H.upper, ?_, H.leaves⟩, .refl _⟩
    intro i b q j hi
    by_cases hic : i = c
    · subst hic
      have hi : S.tasks i = .inside b q j := hi
      rw [hc] at hi
      cases hi
      obtain ⟨d, f⟩ := H.inside _ _ _ _ hc
      exact ⟨d, f⟩
    · exact (H.inside i b q j hi).mono (by rw [hw]; intro e; cases e; exact hic rfl) (by simp) (.refl _)
  | unlockRead c a k r hc hr =>
    rw [List.append_nil]
    exact ⟨⟨H.base, H.upper, H.inside, H.leaves⟩, .refl _⟩
  | leave c a k r hc hw hr =>
    refine ⟨H.outside rfl rfl rfl (fun _ _ _ h => absurd h (after_outside k r _ _ _)) (fun i b x m hm hb => ?_), .refl _⟩
    simp only [List.mem_singleton, AppEv.leave.injEq] at hm
    obtain ⟨rfl, rfl, rfl⟩ := hm
    exact (H.inside _ _ _ _ hc).2 m x hb rfl

theorem NamesInv.exec {s : Rocks} {h : List AppEv} {S : App} (hx : Exec X io s h S) : NamesInv s h S := by
  induction hx with
  | nil => exact ⟨.refl _, fun m hm => Or.inl hm, (fun _ _ _ _ h => by cases h), fun m ⟨_, _, _, h, _⟩ => (nomatch h)⟩
  | snoc hx hs ih => exact (ih.step (LockInv.exec hx) hs).1

/-! ### Parts of executions -/

theorem From.exec {s : Rocks} {h h' : List AppEv} {A S : App} (hx : Exec X io s h A) (hf : From X io A h' S) : Exec X io s (h ++ h') S := by
  induction hf with
  | nil => rw [List.append_nil]; exact hx
  | snoc _ hs ih => rw [← List.append_assoc]; exact ih.snoc hs

theorem From.grows {s : Rocks} {h h' : List AppEv} {A S : App} (hx : Exec X io s h A) (hf : From X io A h' S) :
    Sub A.db.indexed S.db.indexed := by
  induction hf with
  | nil => exact .refl _
  | snoc hf hs ih => exact ih.trans ((NamesInv.exec (hf.exec hx)).step (LockInv.exec (hf.exec hx)) hs).2

theorem step_short {S S' : App} {e : List AppEv} (hs : Step X io S e S') : e = [] ∨ ∃ x, e = [x] := by
  cases hs <;> simp

theorem Exec.split {s : Rocks} {h a b : List AppEv} {S : App} (hx : Exec X io s h S) (hh : h = a ++ b) :
    ∃ R, Exec X io s a R ∧ From X io R b S := by
  induction hx generalizing b with
  | nil =>
    have := List.append_eq_nil_iff.1 hh.symm
    obtain ⟨rfl, rfl⟩ := this
    exact ⟨_, .nil, .nil⟩
  | @snoc h e S S' hx hs ih =>
    rcases step_short hs with rfl | ⟨x, rfl⟩
    · rw [List.append_nil] at hh
      obtain ⟨R, h1, h2⟩ := ih hh
      refine ⟨R, h1, ?_⟩
      have := h2.snoc hs
      rwa [List.append_nil] at this
    · rcases List.eq_nil_or_concat b with rfl | ⟨b', y, rfl⟩
      · rw [List.append_nil] at hh
        subst hh
        exact ⟨S', hx.snoc hs, .nil⟩
      · rw [List.concat_eq_append, ← List.append_assoc] at hh
        obtain ⟨h1, h2⟩ := List.append_inj' hh rfl
        obtain ⟨R, h3, h4⟩ := ih h1
        exact ⟨R, h3, by rw [List.concat_eq_append, ← h2]; exact h4.snoc hs⟩

/-! ### Lookups -/

section
variable {I : SSet Identifier → Prop}

theorem index_allIf (O : IdentOrder) (n : Identifier) (hI : ∀ ix, I ix → I (ix.add n)) :
    (indexProperty X O n).AllIf I (fun _ => True) (fun _ => True) := by
  intro ix hi
  show Prog.AllIf _ _ _ (if _ then _ else _)
  split
  · trivial
  · refine ⟨hI ix hi, (rd_vertexIterate Uuid.nil).thenIf (fun l => ?_)⟩
    refine Prog.AllIf.bind (Q := fun _ => True) (.forItems trivial (fun _ _ _ _ => trivial) (fun v _ => ?_)) (fun b1 h1 => ?_)
    · refine (rd_vpGet _ _).thenIf (fun r => ?_)
      cases r <;> trivial
    · refine (rd_edgeIterateAll _).thenIf (fun l => ?_)
      refine Prog.AllIf.bind (Q := fun _ => True) (.forItems trivial (fun _ _ _ _ => trivial) (fun v _ => ?_)) (fun b2 h2 => ?_)
      · refine (rd_epGet _ _).thenIf (fun r => ?_)
        cases r <;> trivial
      · exact ⟨trivial, trivial⟩

theorem call_allIf (O : IdentOrder) (op : Op) (hI : ∀ n, op = .indexProperty n → ∀ ix, I ix → I (ix.add n)) :
    (callProg X O op).AllIf I (fun _ => True) (fun _ => True) := by
  by_cases h : ∃ n, op = .indexProperty n
  · obtain ⟨n, rfl⟩ := h
    exact (index_allIf O n (hI n rfl)).bind (fun _ _ => trivial)
  · exact (once_call O op (fun n hn => h ⟨n, hn⟩)).allIf

theorem txn_allIf (O : IdentOrder) (w : TxnCall) (hI : ∀ n, w = .indexProperty n → ∀ ix, I ix → I (ix.add n)) :
    (txnProg X O w).AllIf I (fun _ => True) (fun _ => True) := by
  cases w with
  | deleteVertices vs => exact ((once_deleteVertices vs).map _).allIf
  | deleteEdges vs => exact ((once_deleteEdges vs).map _).allIf
  | deleteVertexProperties vs => exact ((once_deleteVertexProperties vs).map _).allIf
  | deleteEdgeProperties vs => exact ((once_deleteEdgeProperties vs).map _).allIf
  | sync => trivial
  | createVertex v => exact ((once_createVertex v).map _).allIf
  | createEdge v => exact ((once_createEdge v).map _).allIf
  | bulkInsert l => exact ((once_bulkInsert l).map _).allIf
  | indexProperty n => exact (index_allIf O n (hI n rfl)).bind (fun _ _ => trivial)
  | setVertexProperties ids n v => exact ((once_setVertexProperties ids n v).map _).allIf
  | setEdgeProperties ids n v => exact ((once_setEdgeProperties ids n v).map _).allIf

/-- A reading method without lookup. -/
theorem read_allIf {α : Type} {p : Prog α} (hp : p.Reading) {Q : Answer → Prop} (f : α → Answer) (hf : ∀ a, Q (f a)) :
    (p >>= fun a => (pure (f a) : Prog Answer)).AllIf I (fun _ => True) Q := hp.thenIf (fun a => hf a)

/-- The call does not report that a property is not indexed (`Finds.err` says the same of errors). -/
theorem finds_access (O : IdentOrder) (a : Access) (hI : ∀ ix n, I ix → I (ix.add n))
    (ha : ∀ m ∈ a.lookups, ∀ ix, I ix → ix.contains m = true) :
    (accessProg X O a).AllIf I (fun _ => True) (fun x => ¬ Res.NotIndexed (.ok x)) := by
  have look : ∀ {α : Type} {n : Identifier} {p : Prog (DynIter α)} {f : Option (DynIter α) → Answer}, n ∈ a.lookups → p.Reading →
      (∀ l, ¬ Res.NotIndexed (.ok (f (some l)))) →
      (ifIndexed n p >>= fun o => (pure (f o) : Prog Answer)).AllIf I (fun _ => True) (fun x => ¬ Res.NotIndexed (.ok x)) := by
    intro α n p f hn hp hf ix hix
    show Prog.AllIf _ _ _ (Prog.bind (if _ then _ else _) _)
    rw [if_pos (ha n hn ix hix)]
    show Prog.AllIf _ _ _ (Prog.bind (Prog.bind p _) _)
    rw [Prog.bind_assoc']
    exact hp.thenIf (fun l => hf l)
  cases a with
  | lib op => exact (call_allIf O op (fun n _ ix h => hI ix n h)).bind (fun _ _ h => h)
  | write w => exact (txn_allIf O w (fun n _ ix h => hI ix n h)).bind (fun _ _ h => h)
  | vertexIdsWithProperty n => exact look (by simp [Access.lookups]) ((rd_vpvIterate _).bind (fun _ => rd_existingIds _)) (fun _ h => h)
  | vertexIdsWithPropertyValue n v => exact look (by simp [Access.lookups]) ((rd_vpvIterate _).bind (fun _ => rd_existingIds _)) (fun _ h => h)
  | edgesWithProperty n => exact look (by simp [Access.lookups]) (rd_epvIterate _) (fun _ h => h)
  | edgesWithPropertyValue n v => exact look (by simp [Access.lookups]) (rd_epvIterate _) (fun _ h => h)
  | vertexCount => exact read_allIf (p := vertexCountP X) ((rd_vertexIterate _).bind (fun _ => trivial)) _ (fun _ h => h)
  | allVertices => exact read_allIf (rd_vertexIterate _) _ (fun _ h => h)
  | rangeVertices o => exact read_allIf (rd_vertexIterate _) _ (fun _ h => h)
  | specificVertices ids => exact read_allIf (rd_specificVertices _) _ (fun _ h => h)
  | edgeCount => exact read_allIf (p := edgeCountP) ((rd_edgeIterateAll _).bind (fun _ => trivial)) _ (fun _ h => h)
  | allEdges => exact read_allIf (rd_edgeIterateAll _) _ (fun _ h => h)
  | rangeEdges o => exact read_allIf (rd_edgeIterateRange _ _) _ (fun _ h => h)
  | rangeReversedEdges o => exact read_allIf (rd_edgeIterateRange _ _) _ (fun _ h => h)
  | specificEdges es => exact read_allIf (rd_specificEdges _) _ (fun _ h => h)
  | vertexProperty v n => exact read_allIf (rd_vpGet _ _) _ (fun _ h => h)
  | vertexProperties v => exact read_allIf (rd_propItems (rd_vpIterate _)) _ (fun _ h => h)
  | edgeProperty e n => exact read_allIf (rd_epGet _ _) _ (fun _ h => h)
  | edgeProperties e => exact read_allIf (rd_propItems (rd_epIterate _)) _ (fun _ h => h)

end
end App
end Rocks
end IndraDB
