import Verif.Proofs.RocksPast
import Verif.Props.RocksApp
import Verif.Props.RocksRace
/-
C86: what the index of a RocksDB datastore lists was true once.
-/
namespace IndraDB
open Rocks
variable {X : Cfg}

/-- C86, presence: whatever the library calls and transactions of a process do, however their accesses interleave, whatever I/O errors
occur, and however often the process or the machine died before: a vertex or an edge listed by the query for the owners of property
`n` had this property in some state the database was in. -/
theorem C86_rocks_presence (s : Rocks) (h : List AppEv) (l : List Rocks) (S : App) (hl : Lived X s h l S)
    (ho : OkEnters (Access.ValuesOk (CanRead X)) h) (o : Owner) (n : Identifier)
    (hg : (rocksStoreFrom X (CanRead X) S.db).Gives (o.presence n) S.db o) :
    ∃ m ∈ l, o.propertyIn ((rocksStore X).graph m) n ≠ none := by
  obtain ⟨k, hk⟩ := gives_presence (hl.sound ho).2.db hg
  refine (hl.past (E := fun o n _ => ∃ m ∈ l, o.propertyIn ((rocksStore X).graph m) n ≠ none) (R := fun _ _ => True)
    (fun _ _ _ _ => trivial) (fun _ h => h) (fun _ => trivial) (fun m hm o n b w _ hb hw _ => ⟨m, hm, ?_⟩) ho
    (fun _ _ _ _ _ _ _ _ _ => Or.inr (fun _ _ => trivial))).2.now o n k hk
  rw [show o.propertyIn ((rocksStore X).graph m) n = some w from propertyIn_some hb hw]
  simp

/-- C86, values: if moreover every value is read back with the hash it was entered under, a vertex or an edge listed by the query for
the owners of `n` with value `x` had this property in some state of the database, with a value of the same hash as `x`; or a
single bulk insertion set the property of this owner to a value with this hash, and then to another. -/
theorem C86_rocks_value (s : Rocks) (h : List AppEv) (l : List Rocks) (S : App) (hl : Lived X s h l S)
    (ho : OkEnters (Access.ValuesOk (fun x => CanRead X x ∧ SameHash X x)) h) (o : Owner) (n : Identifier) (x : Json)
    (hg : (rocksStoreFrom X (CanRead X) S.db).Gives (o.value n x) S.db o) :
    (∃ m ∈ l, ∃ w, o.propertyIn ((rocksStore X).graph m) n = some w ∧ X.H w.stream = X.H x.stream) ∨
    ∃ y, SetTwice h o n y ∧ X.H y.stream = X.H x.stream := by
  have hk := gives_value (hl.sound (ho.mono (Access.ValuesOk.mono (fun _ h => h.1)))).2.db hg
  refine (hl.past (E := fun o n k => (∃ m ∈ l, ∃ w, o.propertyIn ((rocksStore X).graph m) n = some w ∧ X.H w.stream = k) ∨
      ∃ y, SetTwice h o n y ∧ X.H y.stream = k) (R := fun w k => X.H w.stream = k) ?_ (fun _ h => h.1) (fun _ => rfl) ?_ ho ?_).2.now
    o n _ hk
  · intro x w hv hw
    have := hv.2
    rw [SameHash, Cfg.stored, hw] at this
    exact this
  · intro m hm o n b w k hb hw hr
    exact Or.inl ⟨m, hm, w, propertyIn_some hb hw, hr⟩
  · intro c a ha o n x y hne hs
    refine Or.inl (Or.inr ⟨x, ?_, rfl⟩)
    cases a with
    | lib op =>
      cases op with
      | bulkInsert items => exact ⟨c, items, y, Or.inl ha, hne, hs⟩
      | _ => exact absurd (hs.subset List.mem_cons_self) (by simp [bulkOf])
    | write w =>
      cases w with
      | bulkInsert items => exact ⟨c, items, y, Or.inr ha, hne, hs⟩
      | _ => exact absurd (hs.subset List.mem_cons_self) (by simp [bulkOf])
    | _ => exact absurd (hs.subset List.mem_cons_self) (by simp [bulkOf])

/-! ### Examples -/

/-- A schedule, with the states of the database. -/
def Rocks.App.watched (X : Cfg) : List App.Act → App → Option (List AppEv × List Rocks × App)
  | [], S => some ([], [], S)
  | a :: l, S => match App.act X S a with
    | none => none
    | some (e, S') => (watched X l S').map (fun r => (e ++ r.1, S'.db :: r.2.1, r.2.2))

theorem Rocks.App.watched_lived {s : Rocks} : ∀ (a : List App.Act) {h h' : List AppEv} {l l' : List Rocks} {S S' : App}, Lived X s h l S →
    App.watched X a S = some (h', l', S') → Lived X s (h ++ h') (l ++ l') S' := by
  intro a
  induction a with
  | nil => intro h h' l l' S S' e ha; cases ha; simpa using e
  | cons a r ih =>
    intro h h' l l' S S' e ha
    simp only [App.watched] at ha
    split at ha
    · cases ha
    · next ev S1 h1 =>
      obtain ⟨⟨h2, l2, S2⟩, h3, h4⟩ := Option.map_eq_some_iff.1 ha
      cases h4
      have := ih (e.step (App.act_step h1 (.inl rfl))) h3
      simpa using this

/-- The schedule gives a past satisfying `P`. -/
theorem Rocks.Lived.scheduled (a : List App.Act) (P : List AppEv → List Rocks → App → Bool)
    (hd : (App.watched X a (.init Rocks.init)).map (fun r => P r.1 (Rocks.init :: r.2.1) r.2.2) = some true) :
    ∃ h l S, Lived X Rocks.init h l S ∧ P h l S = true := by
  obtain ⟨⟨h', l', S⟩, h1, h2⟩ := Option.map_eq_some_iff.1 hd
  exact ⟨h', _, S, by simpa using App.watched_lived a (.new (X := X) (s := Rocks.init) rfl) h1, h2⟩

/-- The query for property `p` with value 7 lists vertex 1. -/
def W.lists7 (s : Rocks) : Bool := match (RS .debug).value .sorted (.vertexWithPropertyValue W.p (W.n 7)) s with
  | .ok (.vertices l) => decide (⟨W.u 1, W.t⟩ ∈ l)
  | _ => false

theorem W.lists7_gives {s : Rocks} (h : W.lists7 s = true) :
    (rocksStoreFrom (W.cfg .debug) (CanRead (W.cfg .debug)) s).Gives (Owner.value W.p (W.n 7) (.vertex (W.u 1))) s (.vertex (W.u 1)) := by
  unfold W.lists7 at h
  split at h
  · next l he => exact ⟨.sorted, l, W.t, he, of_decide_eq_true h⟩
  · cases h

/-- Vertex 1 has property `p` with the value 7, or one of the same hash. -/
def W.has7 (s : Rocks) : Bool := match (Rocks.graph (W.cfg .debug) s).vprop (W.u 1) W.p with
  | some w => decide ((W.cfg .debug).H w.stream = (W.cfg .debug).H (W.n 7).stream)
  | none => false

/-- A task that indexes `p` and inserts vertex 1 with `p` set to 7 and then to 8. -/
def W.inserts : Task := .call (.lib (.indexProperty W.p)) fun _ =>
  .call (.lib (.bulkInsert [.vertex ⟨W.u 1, W.t⟩, .vertexProperty (W.u 1) W.p (W.n 7), .vertexProperty (W.u 1) W.p (W.n 8)])) fun _ => .ret

/-- C86, the exception: without overlapping calls, I/O errors or crashes, the query for the value 7 can list a vertex whose property
never had this value, nor one of the same hash, in any state of the database, because a bulk insertion set it to 7 and then to 8. -/
theorem C86_rocks_exception : ∃ h l S, Lived (W.cfg .debug) Rocks.init h l S ∧
    OkEnters (Access.ValuesOk (· ∈ W.values)) h ∧
    (rocksStoreFrom (W.cfg .debug) (CanRead (W.cfg .debug)) S.db).Gives (Owner.value W.p (W.n 7) (.vertex (W.u 1))) S.db (.vertex (W.u 1)) ∧
    ∀ m ∈ l, ∀ w, Owner.propertyIn ((RS .debug).graph m) W.p (.vertex (W.u 1)) = some w →
      (W.cfg .debug).H w.stream ≠ (W.cfg .debug).H (W.n 7).stream := by
  obtain ⟨h, l, S, hl, hp⟩ := Lived.scheduled (X := W.cfg .debug) (.start 0 W.inserts :: List.replicate 16 (.step 0))
    (fun h l S => W.knownAll h && W.lists7 S.db && l.all (fun m => !W.has7 m)) (by decide +kernel)
  simp only [Bool.and_eq_true] at hp
  refine ⟨h, l, S, hl, W.knownAll_ok hp.1.1, W.lists7_gives hp.1.2, fun m hm w hw => ?_⟩
  have h7 := List.all_eq_true.1 hp.2 m hm
  have hw : (Rocks.graph (W.cfg .debug) m).vprop (W.u 1) W.p = some w := hw
  rw [W.has7, hw] at h7
  simpa using h7

/-- Two tasks: both set `p` of vertex 1, one (after creating the vertex and indexing `p`) to 7, the other to 8. -/
def W.sets7 : Task := .call (.lib (.createVertex ⟨W.u 1, W.t⟩)) fun _ => .call (.lib (.indexProperty W.p)) fun _ =>
  .call (.lib (W.set 7)) fun _ => .ret
def W.sets8 : Task := .call (.lib (W.set 8)) fun _ => .ret

/-- Their calls overlap: both look at the old value before either writes. -/
def W.overlap : List App.Act := [.start 0 W.sets7, .start 1 W.sets8] ++ List.replicate 17 (.step 0) ++ List.replicate 4 (.step 1) ++
  List.replicate 4 (.step 0) ++ List.replicate 4 (.step 1)

/-- Afterwards the process dies; nothing written is lost. The database is opened again: the value is 8, and the query for the value 7
lists the vertex. This meets the conditions of the theorems above. -/
theorem W.past : ∃ h l t, Lived (W.cfg .debug) t h l (.init t) ∧
    OkEnters (Access.ValuesOk (fun x => CanRead (W.cfg .debug) x ∧ SameHash (W.cfg .debug) x)) h ∧
    (rocksStoreFrom (W.cfg .debug) (CanRead (W.cfg .debug)) t).Gives (Owner.value W.p (W.n 7) (.vertex (W.u 1))) t (.vertex (W.u 1)) ∧
    Owner.propertyIn ((RS .debug).graph t) W.p (.vertex (W.u 1)) = some (W.n 8) := by
  obtain ⟨h, l, S, hl, hp⟩ := Lived.scheduled (X := W.cfg .debug) W.overlap
    (fun h l S => W.knownAll h && match (newDb (Dir.full ((S.log.take 4).foldl (fun kv x => kv.write x.2) Rocks.init.kv))).2 with
      | .ok t => W.lists7 t && decide ((Rocks.graph (W.cfg .debug) t).vprop (W.u 1) W.p = some (W.n 8))
      | .error _ => false) (by decide +kernel)
  rw [Bool.and_eq_true] at hp
  obtain ⟨h1, h2⟩ := hp
  split at h2
  · next t ht =>
    rw [Bool.and_eq_true] at h2
    refine ⟨h, _, t, hl.dies 4 ht, (W.knownAll_ok h1).mono (Access.ValuesOk.mono (fun x hx => ⟨W.canRead hx, ?_⟩)), W.lists7_gives h2.1,
      of_decide_eq_true h2.2⟩
    show Sip.hash ((W.codec.dec (W.codec.enc x)).getD .null).stream = _
    rw [W.codec_values _ hx]; rfl
  · cases h2

end IndraDB
