import Verif.Proofs.AppProgress
import Verif.Proofs.Plugins
import Verif.Props.AppSched
import Verif.Props.RocksLife
/-
C72: library calls and transactions used at the same time on a RocksDB datastore.
-/
namespace IndraDB
open Rocks
variable {X : Cfg} {io : Bool}

/-- C72, errors: a database is created, used by tasks that call library functions and transaction methods in any way, all accesses
interleaving and I/O errors occurring at any moments, dies at any moment losing any number of the last writes, is opened again, and
so on. Then no call panics, none fails because of an entry that cannot be decoded, neither does an item of an iterator, and the next
opening succeeds. -/
theorem C72_rocks_errors (hs : List (List AppEv)) (s : Rocks) (hl : AppLife X hs s) (h : List AppEv) (S : App)
    (hx : App.Exec X io s h S) :
    (∀ c a r, AppEv.leave c a r ∈ h → .panic ∉ faultsOf r ∧ .err .io ∉ faultsOf r) ∧
    ∀ k, ∃ t, (newDb (Dir.full ((S.log.take k).foldl (fun kv x => kv.write x.2) s.kv))).2 = .ok t := by
  have hs := Sound.appLife hl (fun h _ => OkEnters.any h)
  have H := laxRules.exec hs hx (OkEnters.any h)
  refine ⟨fun c a r hc => ?_, fun k => ?_⟩
  · have key := (H.leaves c a r hc).shows
    exact ⟨fun e => (by obtain ⟨_, h, _⟩ := key _ e; cases h), fun e => (by obtain ⟨_, h, h'⟩ := key _ e; cases h; exact h' rfl)⟩
  obtain ⟨t, ht, _⟩ := (hs.replay (l := S.log.take k) (fun x hx => H.log x (List.mem_of_mem_take hx))).opens
  exact ⟨t, ht⟩

/-- C72, errors of transaction methods: if only values that can be read back are written, transaction methods show no errors but I/O
errors, and none if there are none. -/
theorem C72_rocks_methods (hs : List (List AppEv)) (s : Rocks) (hl : AppLife X hs s)
    (ho : ∀ h ∈ hs, OkEnters (Access.ValuesOk (CanRead X)) h) (h : List AppEv) (S : App) (hx : App.Exec X io s h S)
    (hoh : OkEnters (Access.ValuesOk (CanRead X)) h) (c : Nat) (a : Access) (r : Res Answer) (hr : AppEv.leave c a r ∈ h)
    (ha : a.isLib = false) : (∀ f ∈ faultsOf r, f = .err .datastore) ∧ (io = false → faultsOf r = []) := by
  have H := (appRules (io := io)).exec (Sound.appLife hl ho) hx hoh
  have key : ∀ f ∈ faultsOf r, f = .err .datastore ∧ io = true := by
    intro f hf
    obtain ⟨e, rfl, he⟩ := (H.leaves c a r hr).shows f hf
    have he : if a.isLib then e ≠ .io ∧ (e = .datastore → io = true) else io = true ∧ e = .datastore := he
    rw [if_neg (by simp [ha])] at he
    exact ⟨by rw [he.2], he.1⟩
  refine ⟨fun f hf => (key f hf).1, fun hi => ?_⟩
  cases hq : faultsOf r with
  | nil => rfl
  | cons f l => have := (key f (by rw [hq]; exact List.mem_cons_self)).2; rw [hi] at this; cases this

/-- C72, I/O errors of library calls: without I/O errors no call reports one. -/
theorem C72_rocks_calm (hs : List (List AppEv)) (s : Rocks) (hl : AppLife X hs s)
    (ho : ∀ h ∈ hs, OkEnters (Access.ValuesOk (CanRead X)) h) (h : List AppEv) (S : App) (hx : App.Exec X false s h S)
    (hoh : OkEnters (Access.ValuesOk (CanRead X)) h) (c : Nat) (a : Access) (r : Res Answer) (hr : AppEv.leave c a r ∈ h) :
    .err .datastore ∉ faultsOf r := by
  have H := (appRules (io := false)).exec (Sound.appLife hl ho) hx hoh
  intro hf
  obtain ⟨e, e1, he⟩ := (H.leaves c a r hr).shows _ hf
  cases e1
  have he : if a.isLib then Error.datastore ≠ .io ∧ (Error.datastore = .datastore → false = true) else false = true ∧ Error.datastore = .datastore := he
  split at he
  · exact absurd (he.2 rfl) (by simp)
  · exact absurd he.1 (by simp)

/-- C72, the state: at every moment of such a process (calls may be under way), a database in the state reached works exactly as it
should. -/
theorem C72_rocks_sane (hs : List (List AppEv)) (s : Rocks) (hl : AppLife X hs s)
    (ho : ∀ h ∈ hs, OkEnters (Access.ValuesOk (CanRead X)) h) (h : List AppEv) (S : App) (hx : App.Exec X io s h S)
    (hoh : OkEnters (Access.ValuesOk (CanRead X)) h) :
    (rocksStoreFrom X (CanRead X) S.db).Sane (Sem.rocks X) rocksEdgeLt (fun _ => False) := by
  have H := (appRules (io := io)).exec (Sound.appLife hl ho) hx hoh
  exact (Rocks.conformsFrom X S.db ⟨H.db.wf, H.db.values⟩).sane (by funext a b; exact Rocks.edgeLt_eq a b)
    (fun i h => by simp [Rocks.conv] at h)

/-- C72, indexes: once `n` is indexed by a history of calls that keeps to `Op.IndexSafe`, and whatever such processes do afterwards,
the query for the owners of `n` lists every vertex and every edge with the property. -/
theorem C72_rocks_index (n : Identifier) (hist : List (IdentOrder × Op)) (ho : (rocksStore X).OkHist hist)
    (ha : (rocksStore X).Along (fun g op => op.IndexSafe X g) hist Rocks.init)
    (hn : ((rocksStore X).graph ((rocksStore X).run hist Rocks.init)).indexed n = true)
    (hs : List (List AppEv)) (t : Rocks) (hl : AppSessions X ((rocksStore X).run hist Rocks.init) hs t)
    (hos : ∀ h ∈ hs, OkEnters (Access.ValuesOk (CanRead X)) h)
    (h : List AppEv) (S : App) (hx : App.Exec X io t h S) (hoh : OkEnters (Access.ValuesOk (CanRead X)) h) :
    (rocksStoreFrom X (CanRead X) S.db).ListsOwners n S.db := by
  have hi := inv_run hist _ Inv.init ho
  have K := (kept_of_cinv (cinv_run hist _ CInv.init ho ha) (md_run hist _ Inv.init MetaOk.init ho) hn hi.values).mono
    (R' := fun _ _ => True) (fun _ _ _ => trivial)
  have E : Enters X (CanRead X) (fun _ _ => True) := fun _ _ _ _ => trivial
  exact ((K.appSessions E (fun _ h => h) hl hos).app E (fun _ h => h) hx hoh).1.lists

/-- C72, indexes by value. -/
theorem C72_rocks_index_value (n : Identifier) (hist : List (IdentOrder × Op)) (ho : (rocksStore X).OkHist hist)
    (ha : (rocksStore X).Along (fun g op => op.IndexSafe X g) hist Rocks.init)
    (hn : ((rocksStore X).graph ((rocksStore X).run hist Rocks.init)).indexed n = true)
    (hs : List (List AppEv)) (t : Rocks) (hl : AppSessions X ((rocksStore X).run hist Rocks.init) hs t)
    (hos : ∀ h ∈ hs, OkEnters (Access.ValuesOk (fun x => CanRead X x ∧ SameHash X x)) h)
    (h : List AppEv) (S : App) (hx : App.Exec X io t h S) (hoh : OkEnters (Access.ValuesOk (fun x => CanRead X x ∧ SameHash X x)) h) :
    (rocksStoreFrom X (CanRead X) S.db).ListsValueOwners n S.db := by
  have hi := inv_run hist _ Inv.init ho
  have K := kept_of_cinv (cinv_run hist _ CInv.init ho ha) (md_run hist _ Inv.init MetaOk.init ho) hn hi.values
  have E : Enters X (fun x => CanRead X x ∧ SameHash X x) (fun w k => X.H w.stream = k) := by
    intro x w hv hw
    have := hv.2
    rw [SameHash, Cfg.stored, hw] at this
    exact this
  exact ((K.appSessions E (fun _ h => h.1) hl hos).app E (fun _ h => h.1) hx hoh).1.listsValues

/-- C72, progress: every call returns, provided that the tasks inside calls are scheduled, whether or not the lock lets readers
overtake waiting writers. -/
theorem C72_rocks_progress (s : Rocks) (polite : Bool) (h : List AppEv) (S : App) (hx : App.Exec X io s h S) :
    Inevitably (App.Moves X polite) S App.AllOutside := by
  obtain ⟨N, hN⟩ := hx.bounded
  refine Acc.inevitably (App.Moves.acc N _ S rfl hN) fun D hs hend c a p k hc => ?_
  obtain ⟨h', hx'⟩ := hx.star hs
  obtain ⟨D', hm⟩ := (App.LockInv.exec hx').progress (X := X) (polite := polite) hc
  exact hend D' hm

/-- C72, durability: if only the process dies (so that no write is lost), opening the database again gives the contents at that
moment. -/
theorem C72_rocks_killed (hs : List (List AppEv)) (s : Rocks) (hl : AppLife X hs s) (h : List AppEv) (S : App)
    (hx : App.Exec X io s h S) :
    ∃ t, (newDb (Dir.full (S.log.foldl (fun kv x => kv.write x.2) s.kv))).2 = .ok t ∧ t.kv = S.db.kv := by
  have hs := Sound.appLife hl (fun h _ => OkEnters.any h)
  have H := laxRules.exec hs hx (OkEnters.any h)
  rw [← hx.log]
  exact H.db.opens

/-- C72, calls alone: a call during which nothing else happens can do, and return, what the sequential model of C01-C28 and C66 says. -/
theorem C72_rocks_alone (s : Rocks) (h : List AppEv) (S : App) (hx : App.Exec X io s h S) (c : Nat) (O : IdentOrder) (a : Access)
    (k : Except Error Answer → Task) (hc : S.tasks c = .between (.call a k)) (hw : S.writer = none) (hr : S.readers = []) :
    ∃ S', App.Exec X io s (h ++ [.enter c a, .leave c a ((Rocks.txn X O).access a S.db).2]) S' ∧
      S'.db = ((Rocks.txn X O).access a S.db).1 ∧
      (∀ x, ((Rocks.txn X O).access a S.db).2 = .ok x → S'.tasks c = .between (k (.ok x))) ∧
      (∀ e, ((Rocks.txn X O).access a S.db).2 = .error (.err e) → S'.tasks c = .between (k (.error e))) := by
  have hx' := hx.snoc (.enter S c O a k hc)
  obtain ⟨S', h1, h2, h3, _⟩ := App.Exec.runs _ _ hx' (LockConc.setAt_self _ _ _) ⟨.inl hw, by show ∀ i ∈ S.readers, i = c; rw [hr]; simp⟩
    (.inr ⟨Rocks.lo_access O a, hw, hr⟩)
  have e : (accessProg X O a).run S.db = _ := App.accessProg_run O a S.db
  rw [List.append_assoc] at h1
  refine ⟨S', by rw [← e]; exact h1, by rw [← e]; exact h2, fun x hx => ?_, fun f hf => ?_⟩
  · rw [← e] at hx; rw [h3, hx]; rfl
  · rw [← e] at hf; rw [h3, hf]; rfl

/-! ### Example -/

/-- A plugin that creates vertices 1 and 2 and an edge between them. -/
def W.joins : Task := .call (.write (.createVertex ⟨W.u 1, W.t⟩)) fun _ => .call (.write (.createVertex ⟨W.u 2, W.t⟩)) fun _ =>
  .call (.write (.createEdge ⟨W.u 1, W.t, W.u 2⟩)) fun _ => .ret

/-- A plugin that deletes vertex 1 if it sees it, and then panics. -/
def W.cleans : Task := .call (.specificVertices [W.u 1]) fun r => match r with
  | .ok (.vertices [.ok v]) => .call (.write (.deleteVertices [v])) fun _ => .panic
  | _ => .ret

/-- A thread that lists the edges through the library. -/
def W.lists : Task := .call (.lib (.get .allEdge)) fun _ => .ret

/-- The plugin that cleans up runs while the other is inside `create_edge`, between looking for the vertices and writing; meanwhile a
library call is made, which then meets an I/O error. -/
def W.busy : List App.Act :=
  [.start 0 W.joins, .start 1 W.cleans, .start 2 W.lists] ++ List.replicate 8 (.step 0) ++ [.step 0, .step 0, .step 0, .step 2] ++
  List.replicate 11 (.step 1) ++ [.step 0, .step 0, .step 0, .step 2 (some 0), .step 2, .step 2]

/-- What it leads to: the edge without its outbound vertex; a listing that failed. -/
def W.aftermath (h : List AppEv) (S : App) : Bool :=
  W.knownAll h && ((Rocks.graph (W.cfg .debug) S.db).vertex (W.u 1)).isNone && (Rocks.graph (W.cfg .debug) S.db).edge ⟨W.u 1, W.t, W.u 2⟩ &&
  h.any (fun e => match e with
    | .leave 0 (.write (.createEdge _)) (.ok (.txn (.bool true))) => true
    | _ => false) &&
  h.any (fun e => match e with
    | .leave 2 (.lib _) (.error (.err .datastore)) => true
    | _ => false)

theorem W.busy_exec : ∃ h S, App.Exec (W.cfg .debug) true Rocks.init h S ∧ W.aftermath h S = true :=
  App.Exec.scheduled W.busy W.aftermath (by decide +kernel)

/-- A process did this, died, and lost its last write; the database is opened again and a task is started. This meets the conditions of
the theorems above. -/
example : ∃ h t h' S, AppLife (W.cfg .debug) [h] t ∧ App.Exec (W.cfg .debug) true t h' S ∧
    OkEnters (Access.ValuesOk (CanRead (W.cfg .debug))) h ∧ OkEnters (Access.ValuesOk (CanRead (W.cfg .debug))) h' ∧
    (∃ e, AppEv.leave 0 (.write (.createEdge e)) (.ok (.txn (.bool true))) ∈ h) ∧
    (∃ op, AppEv.leave 2 (.lib op) (.error (.err .datastore)) ∈ h) := by
  obtain ⟨h, S, hx, ha⟩ := W.busy_exec
  have hl : AppLife (W.cfg .debug) [] Rocks.init := .new rfl
  obtain ⟨t, ht⟩ := (C72_rocks_errors [] Rocks.init hl h S hx).2 (S.log.length - 1)
  simp only [W.aftermath, Bool.and_eq_true, List.any_eq_true] at ha
  obtain ⟨⟨⟨⟨h1, _⟩, _⟩, e1, m1, h2⟩, e2, m2, h3⟩ := ha
  refine ⟨h, t, _, _, .again _ hl hx ht, .snoc .nil (.start _ 0 W.joins rfl), (W.knownAll_ok h1).mono (Access.ValuesOk.mono (fun _ => W.canRead)),
    (fun _ _ hm => by simp at hm), ?_, ?_⟩
  · split at h2
    · exact ⟨_, m1⟩
    · cases h2
  · split at h3
    · exact ⟨_, m2⟩
    · cases h3

end IndraDB
