import Verif.Proofs.RocksNames
import Verif.Props.RocksCalm
/-
C64: which properties count as indexed while calls on a RocksDB datastore overlap.
C65: why such calls fail.
-/
namespace IndraDB
open Rocks Rocks.Conc
variable {X : Cfg}

/-- `index_property(m)` was called and returned success in the history. -/
def IndexedIn (h : List Ev) (m : Identifier) : Prop := ∃ c a, Ev.call c (.indexProperty m) ∈ h ∧ Ev.ret c (.ok a) ∈ h

/-- Properties known to be indexed after `h` are in the set. -/
theorem indexedIn_sub {s : Rocks} {h : List Ev} {R : Conc} (hx : FaultyExec X s h R) {m : Identifier}
    (hm : (Rocks.graph X s).indexed m = true ∨ IndexedIn h m) : R.db.indexed.contains m = true := by
  have N := NamesInv.exec hx
  rcases hm with hm | ⟨c, a, h1, h2⟩
  · exact N.base m hm
  · exact N.rets c m a h1 h2

/-- C64: in any life of a database with overlapping calls and I/O errors, a call made when all the properties it looks up are
indexed (they were indexed when the database was opened, or an `index_property` has returned success before) does not
report that a property is not indexed. -/
theorem C64_rocks (hs : List (List Ev)) (s : Rocks) (hl : FaultyLife X hs s) (h1 h2 : List Ev) (S : Conc)
    (hx : FaultyExec X s (h1 ++ h2) S) (c : Nat) (op : Op) (hc : Ev.call c op ∈ h2)
    (hn : ∀ m ∈ op.lookups, (Rocks.graph X s).indexed m = true ∨ IndexedIn h1 m) :
    Ev.ret c (.error (.err .notIndexed)) ∉ h2 := by
  intro hr
  obtain ⟨R, x1, x2⟩ := (Steps.ofFaulty hx).split (X := X) (fun _ _ _ h => h) rfl
  have x1 := x1.faulty (X := X) (fun _ _ _ h => h)
  let P : Perms X := ⟨(· ≠ .notIndexed), fun ix => ∀ m ∈ op.lookups, ix.contains m = true, fun _ => True, (fun _ _ _ => by simp),
    fun ix n h m hm => Sub.add ix n m (h m hm)⟩
  have := mild_call (V := fun _ => True) (fun _ _ _ h => h) (Sound.life hl (fun h _ => OkCalls.any h)) x1 x2 (OkCalls.any _) hc P
    (fun _ _ => trivial) (fun ix hix m hm => hix m (indexedIn_sub x1 (hn m hm)))
    ⟨fun n hn => Or.inr (fun ix h => h n hn), Or.inl (fun h => by cases h), Or.inl (fun h => by cases h)⟩
    (Or.inl (fun h => by cases h)) hr
  obtain ⟨e, h, h'⟩ := this
  cases h
  exact h' rfl

/-- C64: an indexed property stays indexed. -/
theorem C64_rocks_stays (s : Rocks) (h : List Ev) (S : Conc) (hx : FaultyExec X s h S) (m : Identifier)
    (hm : (Rocks.graph X s).indexed m = true ∨ IndexedIn h m) : (Rocks.graph X S.db).indexed m = true := indexedIn_sub hx hm

/-- C64: as long as nobody calls `index_property(m)`, no call that looks up `m` succeeds, and `m` is not indexed. -/
theorem C64_rocks_never (s : Rocks) (h : List Ev) (S : Conc) (hx : FaultyExec X s h S) (m : Identifier)
    (hm : (Rocks.graph X s).indexed m = false) (hn : ∀ c, Ev.call c (.indexProperty m) ∉ h) :
    (Rocks.graph X S.db).indexed m = false ∧
    ∀ c op, Ev.call c op ∈ h → m ∈ op.lookups → ∀ a, Ev.ret c (.ok a) ∉ h := by
  refine ⟨?_, fun c op hc hl a => (NeverInv.exec hx hm hn).rets c op a hc hl⟩
  cases hb : (Rocks.graph X S.db).indexed m with
  | false => rfl
  | true =>
    rcases (NamesInv.exec hx).upper m hb with h1 | ⟨c, h1⟩
    · exact absurd (show (Rocks.graph X s).indexed m = true from h1) (by rw [hm]; simp)
    · exact absurd h1 (hn c)

/-- The reasons for the error a call reports: it looks up a property that, as far as is known when it is made, is not
indexed; or its query does not fit; or the id it was given by `create_vertex_from_type` is taken. -/
def Reason (indexed : Identifier → Prop) (op : Op) : Error → Prop
  | .notIndexed => ∃ m ∈ op.lookups, ¬ indexed m
  | .operationOnQuery => ¬ op.QueryFits
  | .uuidTaken => ∃ id t, op = .createVertexFromType id t
  | _ => False

/-- What C65 permits a call. -/
def Perms.reason (X : Cfg) (ix0 : SSet Identifier) (op : Op) (io : Bool) : Perms X where
  err e := Reason (fun m => ix0.contains m = true) op e ∨ e = .datastore ∧ io = true
  names := Sub ix0
  bytes b := io = true ∨ ∃ w, X.codec.dec b = some w
  unreadable b h h' := by
    rcases h with h | ⟨w, h⟩
    · exact Or.inr ⟨rfl, h⟩
    · rw [h] at h'; cases h'
  more ix n h := h.trans (.add ix n)

theorem Perms.reason_permits (ix0 : SSet Identifier) (op : Op) (io : Bool) : Permits (Perms.reason X ix0 op io) op := by
  refine ⟨fun n hn => ?_, ?_, ?_⟩
  · by_cases h : ix0.contains n = true
    · exact Or.inr (fun ix hix => hix n h)
    · exact Or.inl (Or.inl ⟨n, hn, h⟩)
  · by_cases h : op.QueryFits
    · exact Or.inr h
    · exact Or.inl (Or.inl h)
  · by_cases h : ∃ id t, op = .createVertexFromType id t
    · exact Or.inl (Or.inl h)
    · exact Or.inr (fun id t e => h ⟨id, t, e⟩)

/-- C65: all values ever put in can be read back, and no I/O error occurs in the present session (in earlier ones there may
have been any, and crashes). Then a call that fails does so for one of the reasons in `Reason`, however calls overlap. -/
theorem C65_rocks (hs : List (List Ev)) (s : Rocks) (hl : FaultyLife X hs s) (hv : ∀ h ∈ hs, OkCalls (CanRead X) h)
    (h1 h2 : List Ev) (S : Conc) (hx : Exec X s (h1 ++ h2) S) (ho : OkCalls (CanRead X) (h1 ++ h2)) (c : Nat) (op : Op)
    (hc : Ev.call c op ∈ h2) (f : Fault) (hr : Ev.ret c (.error f) ∈ h2) :
    ∃ e, f = .err e ∧ Reason (fun m => (Rocks.graph X s).indexed m = true ∨ IndexedIn h1 m) op e := by
  have fine : ∀ S e S', Conc.Step X S e S' → FaultyStep X S e S' := fun _ _ _ h => .fine h
  obtain ⟨R, x1, x2⟩ := (Steps.ofExec hx).split (X := X) fine rfl
  have x1 := x1.faulty (X := X) fine
  obtain ⟨e, h, h'⟩ := mild_call (V := CanRead X) fine (Sound.life hl hv) x1 x2 ho hc
    (Perms.reason X R.db.indexed op false) (fun x hx => Or.inr hx) (fun ix hix => hix) (Perms.reason_permits _ _ _)
    (Or.inr (fun _ _ _ h => h)) hr
  refine ⟨e, h, ?_⟩
  rcases h' with h' | ⟨_, h'⟩
  · cases e <;> try exact h'
    obtain ⟨m, hm, hn⟩ := h'
    exact ⟨m, hm, fun hi => hn (indexedIn_sub x1 hi)⟩
  · cases h'

/-- C65 with I/O errors and any values: then a call may also report the error of RocksDB or of the codec; still nothing
else. -/
theorem C65_rocks_faulty (hs : List (List Ev)) (s : Rocks) (hl : FaultyLife X hs s)
    (h1 h2 : List Ev) (S : Conc) (hx : FaultyExec X s (h1 ++ h2) S) (c : Nat) (op : Op)
    (hc : Ev.call c op ∈ h2) (f : Fault) (hr : Ev.ret c (.error f) ∈ h2) :
    ∃ e, f = .err e ∧ (e = .datastore ∨ Reason (fun m => (Rocks.graph X s).indexed m = true ∨ IndexedIn h1 m) op e) := by
  have fine : ∀ S e S', FaultyStep X S e S' → FaultyStep X S e S' := fun _ _ _ h => h
  obtain ⟨R, x1, x2⟩ := (Steps.ofFaulty hx).split (X := X) fine rfl
  have x1 := x1.faulty (X := X) fine
  obtain ⟨e, h, h'⟩ := mild_call (V := fun _ => True) fine (Sound.life hl (fun h _ => OkCalls.any h)) x1 x2 (OkCalls.any _) hc
    (Perms.reason X R.db.indexed op true) (fun x hx => Or.inl rfl) (fun ix hix => hix) (Perms.reason_permits _ _ _)
    (Or.inl (Or.inr ⟨rfl, rfl⟩)) hr
  refine ⟨e, h, ?_⟩
  rcases h' with h' | ⟨h', _⟩
  · right
    cases e <;> try exact h'
    obtain ⟨m, hm, hn⟩ := h'
    exact ⟨m, hm, fun hi => hn (indexedIn_sub x1 hi)⟩
  · exact Or.inl h'

/-- C65: in particular, `index_property`, `create_vertex`, `create_edge`, `bulk_insert` and `sync` never fail, and neither does a
call whose query fits and looks up indexed properties only. -/
theorem C65_rocks_succeeds (hs : List (List Ev)) (s : Rocks) (hl : FaultyLife X hs s) (hv : ∀ h ∈ hs, OkCalls (CanRead X) h)
    (h1 h2 : List Ev) (S : Conc) (hx : Exec X s (h1 ++ h2) S) (ho : OkCalls (CanRead X) (h1 ++ h2)) (c : Nat) (op : Op)
    (hc : Ev.call c op ∈ h2) (hn : ∀ m ∈ op.lookups, (Rocks.graph X s).indexed m = true ∨ IndexedIn h1 m) (hf : op.QueryFits)
    (ht : ∀ id t, op ≠ .createVertexFromType id t) (r : Res Reply) (hr : Ev.ret c r ∈ h2) : ∃ a, r = .ok a := by
  cases r with
  | ok a => exact ⟨a, rfl⟩
  | error f =>
    obtain ⟨e, _, h⟩ := C65_rocks hs s hl hv h1 h2 S hx ho c op hc f hr
    cases e with
    | notIndexed => obtain ⟨m, hm, h⟩ := h; exact absurd (hn m hm) h
    | operationOnQuery => exact absurd hf h
    | uuidTaken => obtain ⟨id, t, h⟩ := h; exact absurd h (ht id t)
    | _ => exact h.elim

/-! ### Examples -/

/-- An index is being built (call 0 holds the lock) while calls 1 and 2 that look up the property are under way; after call 0 has
returned, call 3 is made. Calls 1 and 3 succeed, call 2, which got hold of the set before call 0, fails. This meets the
conditions of C64 and C65 for call 3. -/
theorem W.lookups : ∃ a a' a'' S,
    FaultyLife (W.cfg .debug) [] Rocks.init ∧
    Exec (W.cfg .debug) Rocks.init
      ([Ev.call 0 (.indexProperty W.p), .call 1 (.get (.edgeWithPropertyPresence W.p)), .call 2 (.get (.edgeWithPropertyPresence W.p)),
        .ret 2 (.error (.err .notIndexed)), .ret 0 (.ok a)] ++
       [.ret 1 (.ok a'), .call 3 (.get (.edgeWithPropertyPresence W.p)), .ret 3 (.ok a'')]) S := by
  have e := Exec.nil (X := W.cfg .debug) (s := Rocks.init)
  have e := e.snoc (.call _ 0 .sorted (.indexProperty W.p) rfl)
  have e := e.snoc (.call _ 1 .sorted (.get (.edgeWithPropertyPresence W.p)) rfl)
  have e := e.snoc (.call _ 2 .sorted (.get (.edgeWithPropertyPresence W.p)) rfl)
  have e := e.snoc (.readLock _ 2 _ _ rfl rfl)
  have e := e.snoc (.ret _ 2 (.error (.err .notIndexed)) rfl (by decide) (by decide))
  have e := e.snoc (.writeLock _ 0 _ rfl rfl rfl)
  have e := e.snoc (.setIndexed _ 0 _ _ rfl)
  have e := e.snoc (.scan _ 0 _ _ _ rfl)
  have e := e.snoc (.scan _ 0 _ _ _ rfl)
  have e := e.snoc (.write _ 0 _ _ rfl)
  have e := e.snoc (.unlock _ 0 _ rfl rfl)
  have e := e.snoc (.ret _ 0 (.ok .unit) rfl (by decide) (by decide))
  have e := e.snoc (.readLock _ 1 _ _ rfl rfl)
  have e := e.snoc (.scan _ 1 _ _ _ rfl)
  have e := e.snoc (.ret _ 1 _ rfl (by decide) (by decide))
  have e := e.snoc (.call _ 3 .sorted (.get (.edgeWithPropertyPresence W.p)) rfl)
  have e := e.snoc (.readLock _ 3 _ _ rfl rfl)
  have e := e.snoc (.scan _ 3 _ _ _ rfl)
  have e := e.snoc (.ret _ 3 _ rfl (by decide) (by decide))
  exact ⟨_, _, _, _, .new rfl, e⟩

end IndraDB
