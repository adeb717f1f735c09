import Verif.Spec.ServerStart
import Verif.Props.Plugins
import Verif.Props.SharedImage
import Verif.Props.RocksConc
/-
C83: starting the server.
-/
namespace IndraDB
open Rocks

/-! ### Proofs -/
section
variable {P : Type} {F : Finder} {C : ImageCodec} {E : StartEnv P}

theorem globPaths_ok (l : List (Option String)) (paths : List String) : globPaths l = .ok paths ↔ l = paths.map some := by
  induction l generalizing paths with
  | nil => cases paths <;> simp [globPaths]
  | cons x r ih =>
    cases x with
    | none => cases paths <;> simp [globPaths]
    | some p =>
      simp only [globPaths]
      cases hr : globPaths r with
      | error e =>
        simp only [reduceCtorEq, false_iff]
        intro h
        cases paths with
        | nil => cases h
        | cons q t =>
          simp only [List.map_cons, List.cons.injEq] at h
          rw [(ih t).2 h.2] at hr; cases hr
      | ok t =>
        have ht := (ih t).1 hr
        cases paths with
        | nil => simp
        | cons q t' =>
          simp only [Except.ok.injEq, List.cons.injEq, List.map_cons, Option.some.injEq]
          constructor
          · rintro ⟨rfl, rfl⟩; exact ⟨rfl, ht⟩
          · rintro ⟨rfl, h⟩
            have := (ih t').2 h
            rw [hr] at this; cases this; exact ⟨rfl, rfl⟩

theorem globPaths_error (l : List (Option String)) (e : StartError) (h : globPaths l = .error e) : e = .glob ∧ none ∈ l := by
  induction l with
  | nil => cases h
  | cons x r ih =>
    cases x with
    | none => cases h; exact ⟨rfl, List.mem_cons_self⟩
    | some p =>
      simp only [globPaths] at h
      cases hr : globPaths r with
      | error e' => rw [hr] at h; cases h; exact ⟨(ih hr).1, List.mem_cons_of_mem _ (ih hr).2⟩
      | ok t => rw [hr] at h; cases h

theorem lastDeclared_iff (libs : String → PluginFile P) (name : String) (x : P) (paths : List String) :
    LastDeclared libs name x paths ↔ DeclaredLast libs paths name x := by
  constructor
  · intro h
    induction h with
    | here h1 h2 h3 => exact ⟨[], _, _, _, rfl, h1, h2, h3⟩
    | @later path rest _ ih =>
      obtain ⟨pre, q, post, d, rfl, b⟩ := ih
      exact ⟨path :: pre, q, post, d, rfl, b⟩
  · rintro ⟨pre, q, post, d, rfl, h1, h2, h3⟩
    induction pre with
    | nil => exact .here h1 h2 h3
    | cons p pre ih => exact .later ih

theorem startPlugins_iff (m : Entries P) : startPlugins E = .ok m ↔ PluginsStarted E m := by
  unfold startPlugins PluginsStarted
  cases E.pattern with
  | none =>
    simp only [Except.ok.injEq]
    exact ⟨fun h name => by rw [← h], fun h => funext fun name => (h name).symm⟩
  | some pat =>
    cases hg : E.glob pat with
    | none => simp [hg]
    | some l =>
      cases hl : globPaths l with
      | error e =>
        simp only [hl, hg]
        constructor
        · intro h; cases h
        · rintro ⟨paths, h, _⟩
          cases h
          rw [(globPaths_ok _ _).2 rfl] at hl; cases hl
      | ok paths =>
        have he := (globPaths_ok _ _).1 hl
        subst he
        have hC := C47_load E.me E.libs paths
        have hinj : ∀ paths' : List String, paths.map some = paths'.map some → paths' = paths := fun paths' h =>
          (List.map_inj_right (by simp)).1 h.symm
        simp only [hl, hg]
        cases hn : newWithPlugins E.me E.libs paths with
        | error e =>
          constructor
          · intro h; cases h
          · rintro ⟨paths', h, h', _⟩
            have := hinj paths' (by simpa using h); subst this
            obtain ⟨m', h2⟩ := hC.1.2 h'
            rw [hn] at h2; cases h2
        | ok m0 =>
          simp only [Except.ok.injEq]
          have h0 := hC.2 m0 hn
          constructor
          · rintro rfl
            exact ⟨paths, rfl, hC.1.1 ⟨_, hn⟩, fun name x => (h0 name x).trans (lastDeclared_iff _ _ _ _)⟩
          · rintro ⟨paths', h, _, h2⟩
            have := hinj paths' (by simpa using h); subst this
            funext name
            apply Option.ext
            intro x
            rw [h0 name x, lastDeclared_iff, h2 name x]

theorem runServer_iff (db db' : StartedDb) (m : Entries P) :
    runServer E db = .serving db' m ↔ E.localAddr = true ∧ db' = db ∧ PluginsStarted E m := by
  unfold runServer
  by_cases hl : E.localAddr = true
  · simp only [hl, if_true, true_and]
    rw [← startPlugins_iff]
    cases startPlugins E with
    | error e => simp
    | ok m' =>
      simp only [StartResult.serving.injEq, Except.ok.injEq]
      exact ⟨fun ⟨a, b⟩ => ⟨a.symm, b⟩, fun ⟨a, b⟩ => ⟨a.symm, b⟩⟩
  · simp [hl]

theorem openMemory_iff (visible : Bool) (fs : Fs) (path : Option Path) (h : MemHandle) :
    openMemory F C visible fs path = .ok h ↔ MemoryStarted F C visible fs path h := by
  cases path with
  | none =>
    simp only [openMemory, MemHandle.newDb, MemDb.new, Except.ok.injEq]
    exact ⟨fun h => h ▸ .volatile, fun h => by cases h; rfl⟩
  | some p =>
    simp only [openMemory]
    cases visible with
    | false =>
      simp only [Bool.false_and, Bool.false_eq_true, if_false, Except.ok.injEq]
      constructor
      · rintro rfl; exact .new (.inl rfl)
      · intro h; cases h with
        | saved h => cases h
        | new => rfl
    | true =>
      cases hf : fs p with
      | none =>
        simp only [Option.isSome_none, Bool.and_false, Bool.false_eq_true, if_false, Except.ok.injEq]
        constructor
        · rintro rfl; exact .new (.inr hf)
        · intro h; cases h with
          | saved _ h => rw [hf] at h; cases h
          | new => rfl
      | some bytes =>
        simp only [Option.isSome_some, Bool.and_self, if_true, MemHandle.readMsgpack, hf]
        cases hd : C.dec bytes with
        | none =>
          constructor
          · intro h; cases h
          · intro h; cases h with
            | saved _ h h' => rw [hf] at h; cases h; rw [hd] at h'; cases h'
            | new h => rcases h with h | h
                       · cases h
                       · rw [hf] at h; cases h
        | some i =>
          simp only [Except.ok.injEq]
          constructor
          · rintro rfl; exact .saved rfl hf hd
          · intro h; cases h with
            | saved _ h h' => rw [hf] at h; cases h; rw [hd] at h'; cases h'; rfl
            | new h => rcases h with h | h
                       · cases h
                       · rw [hf] at h; cases h

theorem openRocks_newDb (d : Dir) : openRocks false false d = newDb d := rfl

/-- Opening, with errors: a complete database is left alone; else, nothing but the steps of a creation. -/
theorem openRocks_sound {d : Dir} {kv : KV} (hs : Dir.Sound d kv) (a b : Bool) :
    (∀ d' ∈ (openRocks a b d).1, d = Dir.full kv → d' = d) ∧
    Dir.Sound (((openRocks a b d).1.getLast?).getD d) kv ∧
    (∀ s, (openRocks a b d).2 = .ok s ↔ (newDb d).2 = .ok s ∧ ((d = Dir.full kv → a = false) ∧ (d ≠ Dir.full kv → b = false))) ∧
    ((openRocks a b d).2 = .error .panic → (newDb d).2 = .error .panic) := by
  cases hs with
  | none =>
    cases a <;> cases b
    all_goals
      refine ⟨fun _ _ h => (nomatch h), ?_, fun s => ⟨fun h => ?_, fun h => ?_⟩, fun h => ?_⟩
      · first | exact .full _ | exact .bare | exact .none
      · first | exact ⟨h, (fun h => nomatch h), fun _ => rfl⟩ | cases h
      · first | exact h.1 | cases h.2.2 (fun h => nomatch h)
      · first | exact h | cases h
  | bare =>
    have hne : ¬ some ([], KV.empty) = Dir.full KV.empty := fun h => by
      have := congrArg (fun d => d.map (fun x : List CF × KV => x.1)) h
      simp [Dir.full, cfNames] at this
    cases a <;> cases b
    all_goals
      refine ⟨fun _ _ h => absurd h hne, ?_, fun s => ⟨fun h => ?_, fun h => ?_⟩, fun h => ?_⟩
      · first | exact .full _ | exact .bare | exact .none
      · first | exact ⟨h, (fun h => absurd h hne), fun _ => rfl⟩ | cases h
      · first | exact h.1 | cases h.2.2 hne
      · first | exact h | cases h
  | full kv =>
    cases a
    · have e : openRocks false b (Dir.full kv) = ([Dir.full kv], load (Dir.full kv)) := rfl
      have e' : newDb (Dir.full kv) = ([Dir.full kv], load (Dir.full kv)) := rfl
      rw [e, e']
      exact ⟨fun d' hd _ => by simpa using hd, .full kv, fun s => ⟨fun h => ⟨h, fun _ => rfl, fun h => absurd rfl h⟩, fun h => h.1⟩, id⟩
    · have e : openRocks true b (Dir.full kv) = ([Dir.full kv, Dir.full kv], .error (.err .datastore)) := by cases b <;> rfl
      rw [e]
      exact ⟨fun d' hd _ => by simpa using hd, .full kv, fun s => ⟨fun h => (nomatch h), fun h => by cases h.2.1 rfl⟩, fun h => by cases h⟩

theorem newDb_bare : (newDb (some ([], KV.empty))).2 = (newDb none).2 := rfl

end

/-! ### C83 -/
section
variable {P : Type} (F : Finder) (C : ImageCodec) (E : StartEnv P) (D : Disk)

/-- A memory server serves requests exactly if there is an address to listen on, the database can be had, and all plugins asked for
fit; it then has just that database, and just these plugins. -/
theorem C83_start_memory (path : Option Path) (db : StartedDb) (m : Entries P) :
    (serverMain F C E (.memory path) D).2 = .serving db m ↔ Listens E ∧ E.localAddr = true ∧ PluginsStarted E m ∧
      ∃ h, db = .memory h ∧ MemoryStarted F C E.visible D.fs path h := by
  unfold serverMain Listens
  cases ha : E.addrs with
  | none => simp
  | some l =>
    cases l with
    | nil => simp
    | cons a r =>
      by_cases hb : E.bind a = true
      · have hx : ∃ a_1 r_1, some (a :: r) = some (a_1 :: r_1) ∧ E.bind a_1 = true := ⟨a, r, rfl, hb⟩
        simp only [hb, if_true]
        rw [and_iff_right hx]
        cases ho : openMemory F C E.visible D.fs path with
        | error e =>
          constructor
          · intro h; cases h
          · rintro ⟨_, _, h, _, hm⟩
            rw [← openMemory_iff, ho] at hm; cases hm
        | ok h =>
          rw [runServer_iff]
          constructor
          · rintro ⟨h1, rfl, h3⟩; exact ⟨h1, h3, h, rfl, (openMemory_iff _ _ _ _).1 ho⟩
          · rintro ⟨h1, h3, h', rfl, hm⟩
            rw [← openMemory_iff, ho] at hm; cases hm
            exact ⟨h1, rfl, h3⟩
      · simp only [hb]
        constructor
        · intro h; cases h
        · rintro ⟨⟨a', r', h1, h2⟩, _⟩
          cases h1; exact absurd h2 hb

/-- A RocksDB server serves requests exactly if there is an address to listen on, the database can be opened or created, and all
plugins asked for fit. -/
theorem C83_start_rocks {kv : KV} (hd : Dir.Sound D.dir kv) (db : StartedDb) (m : Entries P) :
    (serverMain F C E (.rocksdb false) D).2 = .serving db m ↔ Listens E ∧ E.localAddr = true ∧ PluginsStarted E m ∧
      (D.dir = Dir.full kv → E.cfFails = false) ∧ (D.dir ≠ Dir.full kv → E.openFails = false) ∧
      ∃ s, db = .rocksdb s ∧ (newDb D.dir).2 = .ok s := by
  have hs := (openRocks_sound hd E.cfFails E.openFails).2.2.1
  unfold serverMain Listens
  cases ha : E.addrs with
  | none => simp
  | some l =>
    cases l with
    | nil => simp
    | cons a r =>
      by_cases hb : E.bind a = true
      · have hx : ∃ a_1 r_1, some (a :: r) = some (a_1 :: r_1) ∧ E.bind a_1 = true := ⟨a, r, rfl, hb⟩
        simp only [hb, if_true]
        rw [and_iff_right hx]
        cases ho : (openRocks E.cfFails E.openFails D.dir).2 with
        | error e =>
          constructor
          · intro h; cases h
          · rintro ⟨_, _, h1, h2, s, _, hm⟩
            have := (hs s).2 ⟨hm, h1, h2⟩
            rw [ho] at this; cases this
        | ok s =>
          obtain ⟨hn, h1, h2⟩ := (hs s).1 ho
          simp only []
          rw [runServer_iff]
          constructor
          · rintro ⟨h3, rfl, h4⟩; exact ⟨h3, h4, h1, h2, s, rfl, hn⟩
          · rintro ⟨h3, h4, _, _, s', rfl, hm⟩
            rw [hn] at hm; cases hm
            exact ⟨h3, rfl, h4⟩
      · simp only [hb]
        constructor
        · intro h; cases h
        · rintro ⟨⟨a', r', h1, h2⟩, _⟩
          cases h1; exact absurd h2 hb

/-- `--repair` never ends in serving requests; it says that it has repaired the database exactly if there was an address to listen
on and RocksDB said so; and the directory is then what RocksDB's repair made of it, and no file is touched. -/
theorem C83_start_repair : (∀ db m, (serverMain F C E (.rocksdb true) D).2 ≠ .serving db m) ∧
    ((serverMain F C E (.rocksdb true) D).2 = .repaired ↔ Listens E ∧ (E.repair D.dir).2 = true) ∧
    (Listens E → startLeaves F C E (.rocksdb true) D = ⟨D.fs, (E.repair D.dir).1⟩) := by
  unfold startLeaves serverMain Listens
  cases ha : E.addrs with
  | none => simp
  | some l =>
    cases l with
    | nil => simp
    | cons a r =>
      by_cases hb : E.bind a = true
      · have hx : ∃ a_1 r_1, some (a :: r) = some (a_1 :: r_1) ∧ E.bind a_1 = true := ⟨a, r, rfl, hb⟩
        simp only [hb, if_true, and_iff_right hx]
        refine ⟨fun db m => by split <;> simp, by split <;> simp_all, fun _ => rfl⟩
      · simp [hb]

/-- A start, whether it succeeds or not and whenever it is killed, does no harm: it touches no file; a complete RocksDB database is
left as it is (unless `--repair` is given), and any directory is if the memory datastore is asked for; and without an address to
listen on - such as when another server has it - it touches nothing at all. -/
theorem C83_start_harmless (args : StoreArgs) : ∀ D' ∈ (serverMain F C E args D).1, D'.fs = D.fs ∧ Listens E ∧
    (args = .rocksdb false → ∀ kv, D.dir = Dir.full kv → D'.dir = D.dir) ∧ (∀ path, args ≠ .memory path) := by
  intro D' hD
  unfold serverMain at hD
  split at hD
  · simp at hD
  · simp at hD
  · rename_i a r ha
    split at hD
    · rename_i hb
      have hL : Listens E := ⟨a, r, ha, hb⟩
      split at hD
      · simp only [List.mem_singleton] at hD
        subst hD
        exact ⟨rfl, hL, fun h => by simp at h, by simp⟩
      · simp only [List.mem_map] at hD
        obtain ⟨d, hd, rfl⟩ := hD
        refine ⟨rfl, hL, fun _ kv hk => ?_, by simp⟩
        have := (openRocks_sound (kv := kv) (hk ▸ .full kv) E.cfFails E.openFails).1 d hd hk
        exact this
      · simp at hD
    · simp at hD

/-- However many starts fail (without being killed): the directory stays one that can be opened, with the same data. -/
theorem C83_start_again {kv : KV} (hd : Dir.Sound D.dir kv) (args : StoreArgs) (hr : args ≠ .rocksdb true) :
    Dir.Sound (startLeaves F C E args D).dir kv ∧ (startLeaves F C E args D).fs = D.fs ∧
    ∀ s, (newDb D.dir).2 = .ok s → (newDb (startLeaves F C E args D).dir).2 = .ok s := by
  have key : Dir.Sound (startLeaves F C E args D).dir kv ∧ (startLeaves F C E args D).fs = D.fs := by
    unfold startLeaves serverMain
    split
    · exact ⟨hd, rfl⟩
    · exact ⟨hd, rfl⟩
    · split
      · split
        · exact absurd rfl hr
        · have := (openRocks_sound hd E.cfFails E.openFails).2.1
          cases hl : (openRocks E.cfFails E.openFails D.dir).1.getLast? with
          | none => rw [hl] at this; simp [List.getLast?_map, hl, hd]
          | some d => rw [hl] at this; simpa [List.getLast?_map, hl] using this
        · exact ⟨hd, rfl⟩
      · exact ⟨hd, rfl⟩
  refine ⟨key.1, key.2, ?_⟩
  generalize (startLeaves F C E args D).dir = d at key
  have hk := key.1
  have load_of : ∀ d, Dir.Sound d kv → (newDb d).2 = load (Dir.full kv) := by
    intro d hd
    cases hd with
    | none => rfl
    | bare => rfl
    | full => rfl
  rw [load_of _ hd, load_of _ hk]
  exact fun s h => h

/-- While another process has the RocksDB database open (its lock makes both ways of opening fail), a second server never serves
it, and leaves it alone. -/
theorem C83_start_locked (h1 : E.cfFails = true) (h2 : E.openFails = true) :
    (∀ db m, (serverMain F C E (.rocksdb false) D).2 ≠ .serving db m) ∧
    (∀ D' ∈ (serverMain F C E (.rocksdb false) D).1, D' = D) := by
  have e : openRocks true true D.dir = ([D.dir, D.dir], .error (.err .datastore)) := rfl
  unfold serverMain
  split
  · simp
  · simp
  · split
    · simp [h1, h2, e]
    · simp

/-- What the error says is the case. (A panic: the address resolves to nothing, or RocksDB cannot be opened or repaired.) -/
theorem C83_start_error (args : StoreArgs) :
    (∀ e, (serverMain F C E args D).2 = .failed e →
      match e with
      | .address => E.addrs = none
      | .bind => ∃ a r, E.addrs = some (a :: r) ∧ E.bind a = false
      | .localAddr => E.localAddr = false
      | .image => ∃ p bytes, args = .memory (some p) ∧ D.fs p = some bytes ∧ C.dec bytes = none
      | .pattern => ∃ pat, E.pattern = some pat ∧ E.glob pat = none
      | .glob => ∃ pat l, E.pattern = some pat ∧ E.glob pat = some l ∧ none ∈ l
      | .plugins (.libLoading path) => ∃ pat l, E.pattern = some pat ∧ E.glob pat = some l ∧ some path ∈ l ∧
          ∀ d, E.libs path ≠ .plugin d
      | .plugins (.versionMismatch path v w) => ∃ pat l d, E.pattern = some pat ∧ E.glob pat = some l ∧ some path ∈ l ∧
          E.libs path = .plugin d ∧ d.versionInfo = v ∧ w = E.me ∧ v ≠ w) ∧
    ((serverMain F C E args D).2 = .panicked → E.addrs = some [] ∨
      (args = .rocksdb false ∧ ∀ s, (openRocks E.cfFails E.openFails D.dir).2 ≠ .ok s) ∨
      (args = .rocksdb true ∧ (E.repair D.dir).2 = false)) := by
  have hload : ∀ (paths : List String) (m : Entries P) (e : InitError), loadPlugins E.me E.libs paths m = .error e →
      match e with
      | .libLoading path => path ∈ paths ∧ ∀ d, E.libs path ≠ .plugin d
      | .versionMismatch path v w => path ∈ paths ∧ ∃ d, E.libs path = .plugin d ∧ d.versionInfo = v ∧ w = E.me ∧ v ≠ w := by
    intro paths
    induction paths with
    | nil => intro m e h; cases h
    | cons p r ih =>
      intro m e h
      rw [loadPlugins] at h
      cases hf : E.libs p with
      | notALibrary => rw [hf] at h; cases h; exact ⟨List.mem_cons_self, by simp [hf]⟩
      | noSymbol => rw [hf] at h; cases h; exact ⟨List.mem_cons_self, by simp [hf]⟩
      | plugin d =>
        rw [hf] at h
        simp only [] at h
        split at h
        · rename_i hne
          cases h
          exact ⟨List.mem_cons_self, d, hf, rfl, rfl, hne⟩
        · have := ih _ e h
          cases e with
          | libLoading => exact ⟨List.mem_cons_of_mem _ this.1, this.2⟩
          | versionMismatch => exact ⟨List.mem_cons_of_mem _ this.1, this.2⟩
  have hrun : ∀ db, runServer E db ≠ .panicked ∧ ∀ e, runServer E db = .failed e →
      (e = .localAddr ∧ E.localAddr = false) ∨ startPlugins E = .error e := by
    intro db
    unfold runServer
    cases hl : E.localAddr with
    | false => simp
    | true => cases startPlugins E with
      | ok m => simp
      | error e => simp
  have hpl : ∀ e, startPlugins E = .error e →
      match e with
      | .pattern => ∃ pat, E.pattern = some pat ∧ E.glob pat = none
      | .glob => ∃ pat l, E.pattern = some pat ∧ E.glob pat = some l ∧ none ∈ l
      | .plugins (.libLoading path) => ∃ pat l, E.pattern = some pat ∧ E.glob pat = some l ∧ some path ∈ l ∧
          ∀ d, E.libs path ≠ .plugin d
      | .plugins (.versionMismatch path v w) => ∃ pat l d, E.pattern = some pat ∧ E.glob pat = some l ∧ some path ∈ l ∧
          E.libs path = .plugin d ∧ d.versionInfo = v ∧ w = E.me ∧ v ≠ w
      | _ => False := by
    intro e h
    unfold startPlugins at h
    cases hp : E.pattern with
    | none => rw [hp] at h; cases h
    | some pat =>
      rw [hp] at h
      cases hg : E.glob pat with
      | none => simp only [hg] at h; cases h; exact ⟨pat, rfl, hg⟩
      | some l =>
        simp only [hg] at h
        cases hl : globPaths l with
        | error e' =>
          simp only [hl] at h; cases h
          obtain ⟨rfl, hm⟩ := globPaths_error l _ hl
          exact ⟨pat, l, rfl, hg, hm⟩
        | ok paths =>
          simp only [hl] at h
          have he := (globPaths_ok _ _).1 hl
          cases hn : newWithPlugins E.me E.libs paths with
          | ok m => rw [hn] at h; cases h
          | error e' =>
            rw [hn] at h; cases h
            have := hload paths _ e' hn
            cases e' with
            | libLoading path => exact ⟨pat, l, rfl, hg, by rw [he]; simp [this.1], this.2⟩
            | versionMismatch path v w =>
              obtain ⟨h1, d, h2⟩ := this
              exact ⟨pat, l, d, rfl, hg, by rw [he]; simp [h1], h2⟩
  have hfin : ∀ db e, runServer E db = .failed e →
      match e with
      | .address => E.addrs = none
      | .bind => ∃ a r, E.addrs = some (a :: r) ∧ E.bind a = false
      | .localAddr => E.localAddr = false
      | .image => ∃ p bytes, args = .memory (some p) ∧ D.fs p = some bytes ∧ C.dec bytes = none
      | .pattern => ∃ pat, E.pattern = some pat ∧ E.glob pat = none
      | .glob => ∃ pat l, E.pattern = some pat ∧ E.glob pat = some l ∧ none ∈ l
      | .plugins (.libLoading path) => ∃ pat l, E.pattern = some pat ∧ E.glob pat = some l ∧ some path ∈ l ∧
          ∀ d, E.libs path ≠ .plugin d
      | .plugins (.versionMismatch path v w) => ∃ pat l d, E.pattern = some pat ∧ E.glob pat = some l ∧ some path ∈ l ∧
          E.libs path = .plugin d ∧ d.versionInfo = v ∧ w = E.me ∧ v ≠ w := by
    intro db e h
    rcases (hrun db).2 e h with ⟨rfl, h'⟩ | h
    · exact h'
    · have := hpl e h
      cases e with
      | plugins x => cases x <;> exact this
      | _ => first | exact this | exact this.elim
  unfold serverMain
  split
  · rename_i ha
    exact ⟨fun e h => by cases h; exact ha, fun h => by cases h⟩
  · rename_i ha
    exact ⟨fun e h => (nomatch h), fun _ => .inl ha⟩
  · rename_i a r ha
    split
    · rename_i hb
      split
      · refine ⟨fun e h => ?_, fun h => .inr (.inr ⟨rfl, ?_⟩)⟩
        · simp only [] at h; split at h <;> cases h
        · simp only [] at h
          split at h
          · cases h
          · rename_i hh; simpa using hh
      · cases ho : (openRocks E.cfFails E.openFails D.dir).2 with
        | ok s => exact ⟨fun e h => hfin _ e h, fun h => absurd h (hrun _).1⟩
        | error f => exact ⟨fun e h => (nomatch h), fun _ => .inr (.inl ⟨rfl, fun s h => by simp [ho] at h⟩)⟩
      · rename_i path
        cases ho : openMemory F C E.visible D.fs path with
        | ok s => exact ⟨fun e h => hfin _ e h, fun h => absurd h (hrun _).1⟩
        | error f =>
          refine ⟨fun e h => ?_, fun h => by cases h⟩
          cases h
          cases path with
          | none => cases ho
          | some p =>
            simp only [openMemory] at ho
            split at ho
            · simp only [MemHandle.readMsgpack] at ho
              split at ho
              · rename_i h1 _ h2; simp [h2] at h1
              · rename_i bytes h2
                split at ho
                · rename_i h3; exact ⟨p, bytes, rfl, h2, h3⟩
                · cases ho
            · cases ho
    · rename_i hb
      exact ⟨fun e h => by cases h; exact ⟨a, r, ha, by simpa using hb⟩, fun h => by cases h⟩

/-- In a life of a server (C57), `start` is this start: if the file can be seen, the database is the one `World.step` starts with. -/
theorem C83_start_life (b : Build) (path : Option Path) {db : StartedDb} {m : Entries P} (hv : E.visible = true)
    (h : (serverMain F C E (.memory path) D).2 = .serving db m) :
    ∃ x, db = .memory x ∧ World.step F b C path ⟨D.fs, none⟩ .start = (⟨D.fs, some x⟩, .started) := by
  obtain ⟨_, _, _, x, rfl, hx⟩ := (C83_start_memory F C E D path db m).1 h
  rw [← openMemory_iff, hv] at hx
  refine ⟨x, rfl, ?_⟩
  have : startMemory F C D.fs path = .ok x := by
    cases path with
    | none => exact hx
    | some p => simpa [openMemory, startMemory] using hx
  simp [World.step, this]

/-- A server with a persist path starts with what is saved there, if something is - full statement. -/
def StartsWithSaved (P : Type) : Prop := ∀ (F : Finder) (C : ImageCodec) (E : StartEnv P) (D : Disk) (p : Path) (bytes : Bytes)
    (db : StartedDb) (m : Entries P), D.fs p = some bytes → (serverMain F C E (.memory (some p)) D).2 = .serving db m →
    ∃ i, C.dec bytes = some i ∧ db = .memory ⟨⟨i.load F, false⟩, some p⟩

/-- It does if the file can be seen. -/
theorem C83_start_saved_partial (p : Path) (bytes : Bytes) (db : StartedDb) (m : Entries P) (hv : E.visible = true)
    (hf : D.fs p = some bytes) (h : (serverMain F C E (.memory (some p)) D).2 = .serving db m) :
    ∃ i, C.dec bytes = some i ∧ db = .memory ⟨⟨i.load F, false⟩, some p⟩ := by
  obtain ⟨_, _, _, x, rfl, hx⟩ := (C83_start_memory F C E D (some p) db m).1 h
  cases hx with
  | saved _ h1 h2 => rw [hf] at h1; cases h1; exact ⟨_, h2, rfl⟩
  | new hn =>
    rcases hn with hn | hn
    · rw [hv] at hn; cases hn
    · rw [hf] at hn; cases hn

end

/-! ### Concrete cases -/
namespace W
/-- Two libraries, both with a plugin `a`. -/
def pluginLib (n : Nat) : PluginFile Nat := .plugin ⟨⟨"1.80", 1⟩, fun x => if x = "a" then some n else none⟩

/-- Everything is in order: address 7 can be had, and the pattern matches two libraries. -/
def startEnv : StartEnv Nat where
  addrs := some [7, 8]
  bind := fun a => a == 7
  localAddr := true
  visible := true
  cfFails := false
  openFails := false
  repair := fun d => (d, true)
  pattern := some "*.so"
  glob := fun _ => some [some "x.so", some "y.so"]
  me := ⟨"1.80", 1⟩
  libs := fun p => if p = "x.so" then pluginLib 1 else pluginLib 2

/-- A saved database with one vertex. -/
def savedFs : Fs := fun p => if p = [2] then some [3, 4] else none

theorem startEnv_plugins : PluginsStarted startEnv (fun x => if x = "a" then some 2 else none) := by
  rw [← startPlugins_iff]
  have : startPlugins startEnv = .ok (Entries.extend (Entries.extend (fun _ => none) (fun x => if x = "a" then some 1 else none))
    (fun x => if x = "a" then some 2 else none)) := rfl
  rw [this]
  congr 1
  funext x
  simp only [Entries.extend]
  split <;> rename_i h
  · exact h.symm
  · split <;> rename_i h'
    · by_cases hx : x = "a" <;> simp [hx] at h h'
    · exact h.symm
end W

/-- The memory server starts with the saved vertex and the later of the two plugins. -/
example : (serverMain HashEq.byHash W.tinyCodec W.startEnv (.memory (some [2])) ⟨W.savedFs, none⟩).2 =
    .serving (.memory ⟨⟨W.img1.load HashEq.byHash, false⟩, some [2]⟩) (fun x => if x = "a" then some 2 else none) :=
  (C83_start_memory _ _ _ _ _ _ _).2 ⟨⟨7, [8], rfl, rfl⟩, rfl, W.startEnv_plugins, _, rfl, .saved rfl rfl rfl⟩

/-- The RocksDB server creates its database. -/
example : (serverMain HashEq.byHash W.tinyCodec W.startEnv (.rocksdb false) ⟨W.savedFs, none⟩).2 =
    .serving (.rocksdb Rocks.init) (fun x => if x = "a" then some 2 else none) :=
  (C83_start_rocks _ _ _ _ .none _ _).2 ⟨⟨7, [8], rfl, rfl⟩, rfl, W.startEnv_plugins, fun h => (nomatch h), fun _ => rfl, _, rfl, rfl⟩

/-- A library of another version: the start fails after RocksDB was created, and the next start finds the database. -/
example : let E := { W.startEnv with me := ⟨"1.81", 1⟩ }
    (serverMain HashEq.byHash W.tinyCodec E (.rocksdb false) ⟨W.savedFs, none⟩).2 =
      .failed (.plugins (.versionMismatch "x.so" ⟨"1.80", 1⟩ ⟨"1.81", 1⟩)) ∧
    (startLeaves HashEq.byHash W.tinyCodec E (.rocksdb false) ⟨W.savedFs, none⟩).dir = Dir.full KV.empty := ⟨rfl, rfl⟩

example : (newDb (startLeaves HashEq.byHash W.tinyCodec { W.startEnv with me := ⟨"1.81", 1⟩ } (.rocksdb false)
    ⟨W.savedFs, none⟩).dir).2 = .ok Rocks.init := (C83_start_again _ _ _ _ .none _ (by simp)).2.2 _ rfl

/-- The address is taken: nothing is touched. -/
example : (serverMain HashEq.byHash W.tinyCodec { W.startEnv with bind := fun _ => false } (.rocksdb false)
    ⟨W.savedFs, none⟩).1 = [] := rfl

/-- The errors and the lock, in concrete cases. -/
example : (∀ D' ∈ (serverMain HashEq.byHash W.tinyCodec { W.startEnv with cfFails := true, openFails := true } (.rocksdb false)
    ⟨W.savedFs, Dir.full KV.empty⟩).1, D' = ⟨W.savedFs, Dir.full KV.empty⟩) ∧
    (serverMain HashEq.byHash W.tinyCodec { W.startEnv with cfFails := true, openFails := true } (.rocksdb false)
      ⟨W.savedFs, Dir.full KV.empty⟩).1.length = 2 := ⟨(C83_start_locked _ _ _ _ rfl rfl).2, rfl⟩

example : (serverMain HashEq.byHash W.tinyCodec W.startEnv (.memory (some [2])) ⟨fun _ => some [9], none⟩).2 = .failed .image ∧
    ∃ p bytes, StoreArgs.memory (some [2]) = .memory (some p) ∧ (some [9] : Option Bytes) = some bytes ∧
      W.tinyCodec.dec bytes = none :=
  have h : (serverMain HashEq.byHash W.tinyCodec W.startEnv (.memory (some [2])) ⟨fun _ => some [9], none⟩).2 = .failed .image := rfl
  ⟨h, (C83_start_error HashEq.byHash W.tinyCodec W.startEnv ⟨fun _ => some [9], none⟩ _).1 _ h⟩

/-- The full statement about the saved database is false: if the file cannot be looked at for a moment, the server starts with an
empty database and without an error, … -/
theorem C83_start_saved_refuted : ¬ StartsWithSaved Nat := by
  intro h
  have hs : (serverMain HashEq.byHash W.tinyCodec { W.startEnv with visible := false } (.memory (some [2])) ⟨W.savedFs, none⟩).2 =
      .serving (.memory ⟨⟨Mem.empty, false⟩, some [2]⟩) (fun x => if x = "a" then some 2 else none) :=
    (C83_start_memory _ _ _ _ _ _ _).2 ⟨⟨7, [8], rfl, rfl⟩, rfl, W.startEnv_plugins, _, rfl, .new (.inl rfl)⟩
  obtain ⟨i, h1, h2⟩ := h _ _ _ _ [2] [3, 4] _ _ rfl hs
  have h1 : some W.img1 = some i := h1
  cases h1
  injection h2 with h2
  have : (Mem.empty).vertices.toList = (W.img1.load HashEq.byHash).vertices.toList :=
    congrArg (fun x : MemHandle => x.db.mem.vertices.toList) h2
  revert this
  decide +kernel

/-- … and its next `sync` replaces the saved database, and returns `Ok`. -/
theorem C83_start_overwrites_refuted :
    ∃ h, (serverMain HashEq.byHash W.tinyCodec { W.startEnv with visible := false } (.memory (some [2])) ⟨W.savedFs, none⟩).2 =
      .serving (.memory h) (fun x => if x = "a" then some 2 else none) ∧
    (h.sync (W.ioAt [6] [5]) W.savedFs).2 = .ok .unit ∧ SyncSane W.tinyCodec [2] h .sorted (W.ioAt [6] [5]) ∧
    (h.sync (W.ioAt [6] [5]) W.savedFs).1 [2] = some [5] ∧ W.tinyCodec.dec [5] = some W.img0 :=
  ⟨_, (C83_start_memory _ _ _ _ _ _ _).2 ⟨⟨7, [8], rfl, rfl⟩, rfl, W.startEnv_plugins, _, rfl, .new (.inl rfl)⟩, rfl,
    ⟨by decide +kernel, rfl, by unfold SyncIo.Writes; decide +kernel, by decide +kernel⟩, by decide +kernel, by decide +kernel⟩

end IndraDB
