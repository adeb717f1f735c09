import Verif.Proofs.AppFill
import Verif.Props.RocksFill
import Verif.Props.RocksNames
import Verif.Props.RocksApp
/-
C74: which properties count as indexed, and why library calls fail, while transactions and library calls on a RocksDB datastore
overlap.
C75: `index_property`, of the library or of a transaction, misses no owner.
-/
namespace IndraDB
open Rocks Rocks.App
variable {X : Cfg} {io : Bool}

/-- C74: an indexed property stays indexed, whether a transaction or the library indexed it. -/
theorem C74_rocks_stays (s : Rocks) (h : List AppEv) (S : App) (hx : App.Exec X io s h S) (m : Identifier)
    (hm : (Rocks.graph X s).indexed m = true ∨ IndexedBy h m) : (Rocks.graph X S.db).indexed m = true := by
  have N := App.NamesInv.exec hx
  rcases hm with hm | hm
  · exact N.base m hm
  · exact N.leaves m hm

/-- C74: in any life of a database, with I/O errors: `A` is a moment when task `c` is not inside a call. A call it makes from then on, of
the library or of a transaction, does not report that a property is not indexed, if all properties it looks up were indexed
when the database was opened or an `index_property` has returned success before `A`. -/
theorem C74_rocks (hs : List (List AppEv)) (s : Rocks) (hl : AppLife X hs s) (h1 h2 : List AppEv) (A S : App)
    (hx : App.Exec X io s h1 A) (c : Nat) (hc : A.Outside c) (hf : App.From X io A h2 S) (a : Access) (r : Res Answer)
    (hr : AppEv.leave c a r ∈ h2) (hm : ∀ m ∈ a.lookups, (Rocks.graph X s).indexed m = true ∨ IndexedBy h1 m) :
    ¬ r.NotIndexed ∧ Fault.err .notIndexed ∉ faultsOf r := by
  have known : ∀ m ∈ a.lookups, A.db.indexed.contains m = true := fun m h => C74_rocks_stays s h1 A hx m (hm m h)
  have grows : ∀ h' S', App.From X io A h' S' → Sub A.db.indexed S'.db.indexed := fun h' S' hf => hf.grows hx
  have fnd := ((Track.finds (X := X) (io := io) A.db.indexed).from hf (fun h' S' hf => grows h' S' hf) hc).2 a r hr known
  let Q : Perms X := ⟨(· ≠ .notIndexed), Sub A.db.indexed, fun _ => True, (fun _ _ _ => by simp), fun ix n h => h.trans (.add ix n)⟩
  let Ps : Access → Perms X := fun b => if (∀ m ∈ b.lookups, A.db.indexed.contains m = true) then Q else Perms.lax X
  have ePs : ∀ b, Ps b = Q ∨ Ps b = Perms.lax X := fun b => by
    by_cases h : ∀ m ∈ b.lookups, A.db.indexed.contains m = true
    · exact .inl (if_pos h)
    · exact .inr (if_neg h)
  have sound : ∀ h' S', App.From X io A h' S' → Sound X (fun _ => True) S'.db.kv := fun h' S' hf =>
    (laxRules.exec (Sound.appLife hl (fun h _ => OkEnters.any h)) (hf.exec hx) (OkEnters.any _)).db
  have key := ((Track.shows (io := io) (V := fun _ => True) (Ps := Ps) (fun op => ?_) (fun _ b => ?_) (fun b x _ => ?_)).from hf
    (fun h' S' hf => ⟨sound h' S' hf, fun b => ?_⟩) hc).2 a r hr
  · have e : Ps a = Q := if_pos known
    rw [e] at key
    have key := Rocks.Calm.shows key
    have second : Fault.err .notIndexed ∉ faultsOf r := by
      intro hm
      obtain ⟨e, h, h'⟩ := key _ hm
      cases h
      exact h' rfl
    refine ⟨fun hn => ?_, second⟩
    cases r with
    | ok x => exact fnd hn
    | error f =>
      cases f with
      | panic => exact hn
      | err e =>
        cases e with
        | notIndexed => exact second (by simp [faultsOf])
        | _ => exact hn
  · by_cases h : ∀ m ∈ (Access.lib op).lookups, A.db.indexed.contains m = true
    · rw [show Ps (.lib op) = Q from if_pos h]
      exact ⟨fun n hn => .inr (fun ix hix => hix n (h n hn)), .inl (fun h => nomatch h), .inl (fun h => nomatch h)⟩
    · rw [show Ps (.lib op) = Perms.lax X from if_neg h]
      exact permits_lax op
  · rcases ePs b with e | e <;> rw [e] <;> exact fun h => nomatch h
  · rcases ePs b with e | e <;> rw [e] <;> trivial
  · rcases ePs b with e | e <;> rw [e]
    · exact grows h' S' hf
    · trivial

/-- C74: as long as nobody calls `index_property(m)`, neither of the library nor of a transaction, `m` is not indexed, and every
call that looks it up fails or, if it is a method of a transaction, reports that `m` is not indexed. -/
theorem C74_rocks_never (s : Rocks) (h : List AppEv) (S : App) (hx : App.Exec X io s h S) (m : Identifier)
    (hm : (Rocks.graph X s).indexed m = false) (hn : ∀ c a, AppEv.enter c a ∈ h → ¬ a.Indexes m) :
    (Rocks.graph X S.db).indexed m = false ∧
    ∀ c a r, AppEv.leave c a r ∈ h → m ∈ a.lookups → (∃ f, r = .error f) ∨ r.NotIndexed := by
  have hs : ¬ Has m s.indexed := fun h => by
    have h : (Rocks.graph X s).indexed m = true := h
    rw [hm] at h; cases h
  have H := (missRules (X := X) (io := io) m).exec hs hx hn
  refine ⟨?_, fun c a r hr hl => ?_⟩
  · cases hb : (Rocks.graph X S.db).indexed m with
    | false => rfl
    | true => exact absurd hb H.db
  · cases r with
    | error f => exact .inl ⟨f, rfl⟩
    | ok x => exact .inr ((H.leaves c a _ hr) hl)

/-- C74: all values ever put in can be read back, and no I/O error occurs in the present session. Then a library call fails only for one
of the reasons in `Reason`, whatever transactions and other calls do meanwhile. -/
theorem C74_rocks_reasons (hs : List (List AppEv)) (s : Rocks) (hl : AppLife X hs s)
    (hv : ∀ h ∈ hs, OkEnters (Access.ValuesOk (CanRead X)) h) (h1 h2 : List AppEv) (A S : App)
    (hx : App.Exec X false s h1 A) (c : Nat) (hc : A.Outside c) (hf : App.From X false A h2 S)
    (ho : OkEnters (Access.ValuesOk (CanRead X)) (h1 ++ h2)) (op : Op) (f : Fault)
    (hr : AppEv.leave c (.lib op) (.error f) ∈ h2) :
    ∃ e, f = .err e ∧ Reason (fun m => (Rocks.graph X s).indexed m = true ∨ IndexedBy h1 m) op e := by
  have grows : ∀ h' S', App.From X false A h' S' → Sub A.db.indexed S'.db.indexed := fun h' S' hf => hf.grows hx
  let Ps : Access → Perms X := fun b => match b with
    | .lib op => Perms.reason X A.db.indexed op false
    | _ => Perms.lax X
  -- soundness at the moments up to the end
  have sound : ∀ h' S' h'', App.From X false A h' S' → h' ++ h'' = h2 → Sound X (CanRead X) S'.db.kv := fun h' S' h'' hf e => by
    refine (laxRules.exec (Sound.appLife hl hv) (hf.exec hx) ?_).db
    intro c a hm
    refine ho c a ?_
    rcases List.mem_append.1 hm with hm | hm
    · exact List.mem_append_left _ hm
    · exact List.mem_append_right _ (e ▸ List.mem_append_left _ hm)
  have T := Track.shows (X := X) (io := false) (V := CanRead X) (Ps := Ps) (fun op => Perms.reason_permits _ op false)
    (fun h => nomatch h) (fun b x hx => by
      cases b with
      | lib op => exact .inr hx
      | _ => trivial)
  have all : ∀ {h' : List AppEv} {S' : App}, App.From X false A h' S' → ∀ h'', h' ++ h'' = h2 →
      (∀ a p k, S'.tasks c = .inside a p k → p.Calm (Ps a) (fun x => Shows (Ps a) (.ok x))) ∧
      ∀ a r, AppEv.leave c a r ∈ h' → (Prog.done r).Calm (Ps a) (fun x => Shows (Ps a) (.ok x)) := by
    intro h' S' hf
    induction hf with
    | nil => exact fun _ _ => ⟨fun a p k h => absurd h (hc a p k), fun _ _ h => nomatch h⟩
    | snoc hf hs ih =>
      intro h'' e
      rw [List.append_assoc] at e
      obtain ⟨i1, i2⟩ := ih _ e
      obtain ⟨h1, h2⟩ := T.step hs ⟨sound _ _ _ hf e, fun b => by
        cases b with
        | lib op => exact grows _ _ hf
        | _ => trivial⟩ i1
      refine ⟨h1, fun a r hm => ?_⟩
      rcases List.mem_append.1 hm with hm | hm
      · exact i2 a r hm
      · exact h2 a r hm
  have key := Rocks.Calm.shows ((all hf [] (by simp)).2 _ _ hr)
  obtain ⟨e, h, h'⟩ := key f (by simp [faultsOf])
  refine ⟨e, h, ?_⟩
  rcases h' with h' | ⟨_, h'⟩
  · cases e <;> try exact h'
    obtain ⟨m, hm, hn⟩ := h'
    exact ⟨m, hm, fun hi => hn (C74_rocks_stays s h1 A hx m hi)⟩
  · cases h'

/-- C75: in any life of a database (sessions of transactions and library calls, I/O errors and crashes before the present one), `n` is
not indexed when the present session begins, and `index_property(n)` has not been called up to the moment `A`. From `A` on,
transactions and library calls overlap in any way, and `index_property(n)` of a transaction or of the library returns success. A
vertex or edge that no call under way at `A`, and no later call, creates, is listed by the query for the owners of `n`, if it
exists and has the property: whether it was set before, meanwhile or afterwards, and whether by a transaction or by the library. -/
theorem C75_rocks (X : Cfg) (hs : List (List AppEv)) (s : Rocks) (hl : AppLife X hs s)
    (hos : ∀ h ∈ hs, OkEnters (Access.ValuesOk (CanRead X)) h) (n : Identifier) (hn : (Rocks.graph X s).indexed n = false) (o : Owner)
    (h1 h2 : List AppEv) (A S : App) (hx : App.Exec X false s h1 A) (hf : App.From X false A h2 S)
    (ho : OkEnters (Access.ValuesOk (CanRead X)) (h1 ++ h2)) (hi : ∀ c a, AppEv.enter c a ∈ h1 → ¬ a.Indexes n) (hr : IndexedBy h2 n)
    (hc1 : ∀ c a p k, A.tasks c = .inside a p k → ¬ a.Creates o) (hc2 : ∀ c a, AppEv.enter c a ∈ h2 → ¬ a.Creates o) :
    (rocksStoreFrom X (CanRead X) S.db).ListsOwner n o S.db := by
  have D := Sound.appLife hl hos
  have W := (laxRules.exec D (hf.exec hx) ho).db
  have H := App.FillInv.from (R := fun _ _ => True) (V := CanRead X) (n := n) (o := o) (fun _ _ _ _ => trivial) (fun _ => trivial)
    (fun _ h => h) D hx hf ho (fun h => by rw [show (graph X s).indexed n = true from h] at hn; cases hn) hi hc1 hc2
  exact (H.leaves hr).lists W.wf W.values

/-- C75 for values: if moreover the values set in the present session are read back with the hash they are entered under
(`SameHash`), the query for the owners of `n` with the value `x` lists the vertex or edge if its property has this value. -/
theorem C75_rocks_value (X : Cfg) (hs : List (List AppEv)) (s : Rocks) (hl : AppLife X hs s)
    (hos : ∀ h ∈ hs, OkEnters (Access.ValuesOk (CanRead X)) h) (n : Identifier) (hn : (Rocks.graph X s).indexed n = false) (o : Owner)
    (h1 h2 : List AppEv) (A S : App) (hx : App.Exec X false s h1 A) (hf : App.From X false A h2 S)
    (ho : OkEnters (Access.ValuesOk (fun x => CanRead X x ∧ SameHash X x)) (h1 ++ h2))
    (hi : ∀ c a, AppEv.enter c a ∈ h1 → ¬ a.Indexes n) (hr : IndexedBy h2 n)
    (hc1 : ∀ c a p k, A.tasks c = .inside a p k → ¬ a.Creates o) (hc2 : ∀ c a, AppEv.enter c a ∈ h2 → ¬ a.Creates o) :
    (rocksStoreFrom X (CanRead X) S.db).ListsValueOwner n o S.db := by
  have D := Sound.appLife hl hos
  have W := (laxRules.exec D (hf.exec hx) (ho.mono (Access.ValuesOk.mono (fun _ h => h.1)))).db
  have E : Enters X (fun x => CanRead X x ∧ SameHash X x) (fun w k => X.H w.stream = k) := by
    intro x w hv hw
    have := hv.2
    rw [SameHash, Cfg.stored, hw] at this
    exact this
  have H := App.FillInv.from (n := n) (o := o) E (fun _ => rfl)
    (fun _ h => h.1) D hx hf ho (fun h => by rw [show (graph X s).indexed n = true from h] at hn; cases hn) hi hc1 hc2
  exact (H.leaves hr).listsValues W.wf W.values

/-! ### Examples -/

theorem Rocks.App.acts_from {A : App} : ∀ (l : List Act) {h h' : List AppEv} {S S' : App}, App.From X io A h S →
    acts X l S = some (h', S') → (io = true ∨ l.all Act.calm = true) → App.From X io A (h ++ h') S' := by
  intro l
  induction l with
  | nil => intro h h' S S' e ha _; cases ha; rw [List.append_nil]; exact e
  | cons a l ih =>
    intro h h' S S' e ha hio
    simp only [acts] at ha
    split at ha
    · cases ha
    · next ev S1 h1 =>
      obtain ⟨⟨h2, S2⟩, h3, h4⟩ := Option.map_eq_some_iff.1 ha
      cases h4
      rw [← List.append_assoc]
      have hio' : io = true ∨ (a.calm = true ∧ l.all Act.calm = true) := by
        rcases hio with h | h
        · exact .inl h
        · simp only [List.all_cons, Bool.and_eq_true] at h; exact .inr h
      exact ih (e.snoc (act_step h1 (hio'.imp_right And.left))) h3 (hio'.imp_right And.right)

/-- Two schedules, one after the other. -/
theorem Rocks.App.scheduled_parts {s : Rocks} (l1 l2 : List Act) (P : List AppEv → App → List AppEv → App → Bool)
    (hc1 : l1.all Act.calm = true) (hc2 : l2.all Act.calm = true)
    (hd : ((acts X l1 (.init s)).bind fun r => (acts X l2 r.2).map fun q => P r.1 r.2 q.1 q.2) = some true) :
    ∃ h1 A h2 S, App.Exec X false s h1 A ∧ App.From X false A h2 S ∧ P h1 A h2 S = true := by
  obtain ⟨⟨h1, A⟩, a1, hd⟩ := Option.bind_eq_some_iff.1 hd
  obtain ⟨⟨h2, S⟩, a2, hd⟩ := Option.map_eq_some_iff.1 hd
  exact ⟨h1, A, h2, S, by simpa using acts_exec l1 (.nil (X := X) (s := s)) a1 (.inr hc1),
    by simpa using acts_from l2 (.nil (X := X) (A := A)) a2 (.inr hc2), hd⟩

/-- A transaction that creates vertex 1 and sets its property `p` to 7. -/
def W.writes : Task := .call (.write (.createVertex ⟨W.u 1, W.t⟩)) fun _ =>
  .call (.write (.setVertexProperties [W.u 1] W.p (W.n 7))) fun _ => .ret

/-- One that indexes `p`. -/
def W.indexes : Task := .call (.write (.indexProperty W.p)) fun _ => .ret

/-- A thread that asks for the vertices with `p`, in a transaction and through the library. -/
def W.asks : Task := .call (.vertexIdsWithProperty W.p) fun _ => .call (.lib (.get (.vertexWithPropertyPresence W.p))) fun _ => .ret

/-- Calls that create something. -/
def W.creates : Access → Bool
  | .lib (.createVertex _) | .lib (.createVertexFromType _ _) | .lib (.createEdge _) | .lib (.bulkInsert _) => true
  | .write (.createVertex _) | .write (.createEdge _) | .write (.bulkInsert _) => true
  | _ => false

theorem W.creates_of {a : Access} {o : Owner} (h : a.Creates o) : W.creates a = true := by
  cases a with
  | lib op => cases op <;> first | rfl | (cases o <;> exact h.elim)
  | write w => cases w <;> first | rfl | (cases o <;> exact h.elim)
  | _ => exact h.elim

/-- Calls that index something. -/
def W.isIndex : Access → Bool
  | .lib (.indexProperty _) | .write (.indexProperty _) => true
  | _ => false

theorem W.isIndex_of {a : Access} {n : Identifier} (h : a.Indexes n) : W.isIndex a = true := by
  cases a with
  | lib op => have h : op = _ := h; subst h; rfl
  | write w => have h : w = _ := h; subst h; rfl
  | _ => exact h.elim

/-- No call made satisfies `f`. -/
def W.noEnter (f : Access → Bool) (h : List AppEv) : Bool := h.all fun e => match e with
  | .enter _ a => !f a
  | _ => true

theorem W.noEnter_of {f : Access → Bool} {h : List AppEv} (hh : W.noEnter f h = true) {c : Nat} {a : Access} (hm : AppEv.enter c a ∈ h) :
    f a = false := by
  have := List.all_eq_true.1 hh _ hm
  simpa using this

/-- No task that made a call is inside one satisfying `f`. -/
def W.noneInside (f : Access → Bool) (h : List AppEv) (A : App) : Bool := h.all fun e => match e with
  | .enter c _ => match A.tasks c with
    | .inside a _ _ => !f a
    | _ => true
  | _ => true

theorem W.noneInside_of {s : Rocks} {f : Access → Bool} {h : List AppEv} {A : App} (hx : App.Exec X io s h A)
    (hh : W.noneInside f h A = true) (c : Nat) (a : Access) (p : Prog Answer) (k : Except Error Answer → Task)
    (hc : A.tasks c = .inside a p k) : f a = false := by
  have := List.all_eq_true.1 hh _ ((App.NamesInv.exec hx).inside c a p k hc).1
  simp only [hc] at this
  simpa using this

/-- Vertex 1 is created; the transaction is about to write its property. -/
def W.before : List App.Act := [.start 0 W.writes, .start 1 W.indexes, .start 2 W.asks] ++ List.replicate 6 (.step 0)

/-- Another transaction calls `index_property(p)`, and waits; the property is written; the index is built. -/
def W.after : List App.Act := [.step 1] ++ List.replicate 3 (.step 0) ++ List.replicate 8 (.step 1)

def W.filled (h1 : List AppEv) (A : App) (h2 : List AppEv) (S : App) : Bool :=
  W.knownAll (h1 ++ h2) && W.noEnter W.isIndex h1 && W.noEnter W.creates h2 && W.noneInside W.creates h1 A &&
  ((match A.tasks 0 with
    | .inside (.write (.setVertexProperties _ _ _)) _ _ => true
    | _ => false) &&
  decide ((Rocks.graph (W.cfg .debug) A.db).vprop (W.u 1) W.p = none) &&
  decide ((Rocks.graph (W.cfg .debug) S.db).vprop (W.u 1) W.p = some (W.n 7)) &&
  h2.any (fun e => match e with
    | .leave 1 (.write (.indexProperty n)) (.ok _) => decide (n = W.p)
    | _ => false))

/-- The conditions of C75 are met by a transaction that sets the property while another builds the index. -/
example : ∃ h1 A h2 S, App.Exec (W.cfg .debug) false Rocks.init h1 A ∧ App.From (W.cfg .debug) false A h2 S ∧
    AppLife (W.cfg .debug) [] Rocks.init ∧ OkEnters (Access.ValuesOk (CanRead (W.cfg .debug))) (h1 ++ h2) ∧
    (Rocks.graph (W.cfg .debug) Rocks.init).indexed W.p = false ∧
    (∀ c a, AppEv.enter c a ∈ h1 → ¬ a.Indexes W.p) ∧ IndexedBy h2 W.p ∧
    (∀ c a p k, A.tasks c = .inside a p k → ¬ a.Creates (.vertex (W.u 1))) ∧
    (∀ c a, AppEv.enter c a ∈ h2 → ¬ a.Creates (.vertex (W.u 1))) ∧
    (Rocks.graph (W.cfg .debug) A.db).vprop (W.u 1) W.p = none ∧
    (Rocks.graph (W.cfg .debug) S.db).vprop (W.u 1) W.p = some (W.n 7) ∧
    (rocksStoreFrom (W.cfg .debug) (CanRead (W.cfg .debug)) S.db).ListsOwner W.p (.vertex (W.u 1)) S.db := by
  obtain ⟨h1, A, h2, S, hx, hf, hp⟩ := App.scheduled_parts (X := W.cfg .debug) (s := Rocks.init) W.before W.after W.filled
    (by decide +kernel) (by decide +kernel) (by decide +kernel)
  simp only [W.filled, Bool.and_eq_true, decide_eq_true_eq] at hp
  obtain ⟨⟨⟨⟨p1, p2⟩, p3⟩, p4⟩, ⟨⟨_, p5⟩, p6⟩, p7⟩ := hp
  have ok := (W.knownAll_ok p1).mono (Access.ValuesOk.mono (fun _ => W.canRead (b := .debug)))
  have q1 : ∀ c a, AppEv.enter c a ∈ h1 → ¬ a.Indexes W.p := fun c a hm h => by
    have := W.noEnter_of p2 hm
    rw [W.isIndex_of h] at this; cases this
  have q2 : IndexedBy h2 W.p := by
    obtain ⟨e, he, hb⟩ := List.any_eq_true.1 p7
    split at hb
    · exact ⟨_, _, _, he, congrArg TxnCall.indexProperty (of_decide_eq_true hb)⟩
    · cases hb
  have q3 : ∀ c a p k, A.tasks c = .inside a p k → ¬ a.Creates (.vertex (W.u 1)) := fun c a p k hc h => by
    have := W.noneInside_of hx p4 c a p k hc
    rw [W.creates_of h] at this; cases this
  have q4 : ∀ c a, AppEv.enter c a ∈ h2 → ¬ a.Creates (.vertex (W.u 1)) := fun c a hm h => by
    have := W.noEnter_of p3 hm
    rw [W.creates_of h] at this; cases this
  exact ⟨h1, A, h2, S, hx, hf, .new rfl, ok, rfl, q1, q2, q3, q4, p5, p6,
    C75_rocks _ [] _ (.new rfl) (fun _ h => nomatch h) W.p rfl _ h1 h2 A S hx hf ok q1 q2 q3 q4⟩

def W.found (h1 : List AppEv) (A : App) (h2 : List AppEv) (_ : App) : Bool :=
  W.knownAll (h1 ++ h2) &&
  ((match A.tasks 2 with
    | .between _ => true
    | _ => false) &&
  h1.any (fun e => match e with
    | .leave 1 (.write (.indexProperty n)) (.ok _) => decide (n = W.p)
    | _ => false) &&
  h2.any (fun e => match e with
    | .leave 2 (.vertexIdsWithProperty n) (.ok (.ids (some [.ok i]))) => decide (n = W.p) && decide (i = W.u 1)
    | _ => false))

/-- The conditions of C74 are met: after a transaction has indexed `p`, a task looks it up. -/
example : ∃ h1 A h2 S r, App.Exec (W.cfg .debug) false Rocks.init h1 A ∧ App.From (W.cfg .debug) false A h2 S ∧
    AppLife (W.cfg .debug) [] Rocks.init ∧ OkEnters (Access.ValuesOk (CanRead (W.cfg .debug))) (h1 ++ h2) ∧ A.Outside 2 ∧
    IndexedBy h1 W.p ∧ AppEv.leave 2 (.vertexIdsWithProperty W.p) r ∈ h2 ∧
    (∀ m ∈ (Access.vertexIdsWithProperty W.p).lookups, (Rocks.graph (W.cfg .debug) Rocks.init).indexed m = true ∨ IndexedBy h1 m) := by
  obtain ⟨h1, A, h2, S, hx, hf, hp⟩ := App.scheduled_parts (X := W.cfg .debug) (s := Rocks.init) (W.before ++ W.after)
    (List.replicate 10 (.step 2)) W.found (by decide +kernel) (by decide +kernel) (by decide +kernel)
  simp only [W.found, Bool.and_eq_true, List.any_eq_true] at hp
  obtain ⟨p1, ⟨p2, e, he, p3⟩, e', he', p4⟩ := hp
  have ok := (W.knownAll_ok p1).mono (Access.ValuesOk.mono (fun _ => W.canRead (b := .debug)))
  have q2 : IndexedBy h1 W.p := by
    split at p3
    · exact ⟨_, _, _, he, congrArg TxnCall.indexProperty (of_decide_eq_true p3)⟩
    · cases p3
  split at p4
  · simp only [Bool.and_eq_true, decide_eq_true_eq] at p4
    obtain ⟨rfl, rfl⟩ := p4
    refine ⟨h1, A, h2, S, _, hx, hf, .new rfl, ok, fun a p k h => ?_, q2, he', fun m hm => ?_⟩
    · rw [h] at p2; cases p2
    · simp [Access.lookups] at hm
      subst hm
      exact .inr q2
  · cases p4

/-- Nobody indexes `p`: C74 says what the lookups report. -/
def W.unknown (h : List AppEv) (_ : App) : Bool :=
  W.noEnter W.isIndex h &&
  (h.any (fun e => match e with
    | .leave 2 (.vertexIdsWithProperty _) (.ok (.ids none)) => true
    | _ => false) &&
  h.any (fun e => match e with
    | .leave 2 (.lib _) (.error (.err .notIndexed)) => true
    | _ => false))

example : ∃ h S, App.Exec (W.cfg .debug) false Rocks.init h S ∧ (Rocks.graph (W.cfg .debug) Rocks.init).indexed W.p = false ∧
    (∀ c a, AppEv.enter c a ∈ h → ¬ a.Indexes W.p) ∧ (∃ n, AppEv.leave 2 (.vertexIdsWithProperty n) (.ok (.ids none)) ∈ h) ∧
    ∃ op, AppEv.leave 2 (.lib op) (.error (.err .notIndexed)) ∈ h := by
  obtain ⟨h, S, hx, hp⟩ := App.Exec.scheduled_calm (X := W.cfg .debug) (s := Rocks.init) ([.start 2 W.asks] ++ List.replicate 6 (.step 2))
    W.unknown (by decide +kernel) (by decide +kernel)
  simp only [W.unknown, Bool.and_eq_true, List.any_eq_true] at hp
  obtain ⟨p1, ⟨e, he, p2⟩, e', he', p3⟩ := hp
  refine ⟨h, S, hx, rfl, fun c a hm h => ?_, ?_, ?_⟩
  · have := W.noEnter_of p1 hm
    rw [W.isIndex_of h] at this; cases this
  · split at p2
    · exact ⟨_, he⟩
    · cases p2
  · split at p3
    · exact ⟨_, he'⟩
    · cases p3

end IndraDB
