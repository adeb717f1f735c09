import Verif.Spec.ServerMain
import Verif.Props.MemorySync
/-
C57: the life of a server with a persistent in-memory datastore.
-/
namespace IndraDB
open Mem
variable {K : HashEq} {b : Build}

theorem Mem.Eqv.distinct {m m' : Mem} (h : Mem.Eqv K m m') : AllDistinct K m' := by
  intro n c hc
  obtain ⟨pv, h1, h2⟩ := h
  have := h2 n
  rw [h1] at hc
  simp only at hc
  rw [hc] at this
  cases hx : m.propertyValues.get n with
  | none => rw [hx] at this; exact this.elim
  | some c' => rw [hx] at this; exact this.2.1

theorem Mem.Eqv.trans {m m' m'' : Mem} (he : Mem.Eqv K m m') (hi : Mem.Eqv K m' m'') : Mem.Eqv K m m'' := by
  obtain ⟨pv, h1, h2⟩ := he
  obtain ⟨pv', h3, h4⟩ := hi
  refine ⟨pv', by rw [h3, h1], fun n => ?_⟩
  have a1 := h2 n
  have a2 := h4 n
  rw [h1] at a2
  simp only at a2
  generalize m.propertyValues.get n = x at a1 ⊢
  generalize pv.get n = y at a1 a2
  generalize pv'.get n = z at a2 ⊢
  cases x <;> cases y <;> cases z <;> first | exact a1.elim | exact a2.elim | trivial | skip
  exact ⟨a1.1, a2.2.1, fun v => (a1.2.2 v).trans (a2.2.2 v)⟩

/-- The reply of a memory database on which the calls `c` were made. -/
def memAnswer (K : HashEq) (b : Build) (c : List (HashOrder × Op)) (O : HashOrder) (op : Op) : Res Reply :=
  (MemDb.step K b O op (MemDb.run K b c MemDb.new)).2

theorem MemDb.run_snoc (c : List (HashOrder × Op)) (O : HashOrder) (op : Op) : ∀ d,
    MemDb.run K b (c ++ [(O, op)]) d = (MemDb.step K b O op (MemDb.run K b c d)).1 := by
  induction c with
  | nil => intro d; rfl
  | cons a r ih => intro d; exact ih _

theorem MemDb.step_poisons {d : MemDb} (O : HashOrder) (op : Op) :
    (MemDb.step K b O op d).1.poisoned = true ↔ (MemDb.step K b O op d).2 = .error .panic := by
  cases hp : d.poisoned with
  | false => have := memStep_eq (K := K) (b := b) hp O op; rw [this.2.2, this.2.1]
  | true => simp [MemDb.step, hp]

theorem poisoned_iff (c : List (HashOrder × Op)) :
    (MemDb.run K b c MemDb.new).poisoned = true ↔ Panicked (memAnswer K b) c := by
  constructor
  · intro h
    rcases List.eq_nil_or_concat c with rfl | ⟨c, ⟨O, op⟩, rfl⟩
    · cases h
    · rw [List.concat_eq_append] at h ⊢
      rw [MemDb.run_snoc, MemDb.step_poisons] at h
      exact ⟨c, O, op, [], rfl, h⟩
  · rintro ⟨pre, O, op, post, rfl, h⟩
    have e : ∀ (post : List (HashOrder × Op)) (d : MemDb), d.poisoned = true → (MemDb.run K b post d).poisoned = true := by
      intro post
      induction post with
      | nil => intro d h; exact h
      | cons a r ih =>
        intro d h
        have : (MemDb.step K b a.1 a.2 d).1 = d := by simp [MemDb.step, h]
        show (MemDb.run K b r (MemDb.step K b a.1 a.2 d).1).poisoned = true
        rw [this]; exact ih d h
    have e2 : MemDb.run K b (pre ++ (O, op) :: post) MemDb.new =
        MemDb.run K b post (MemDb.run K b (pre ++ [(O, op)]) MemDb.new) := by
      have : ∀ (pre : List (HashOrder × Op)) (d : MemDb), MemDb.run K b (pre ++ (O, op) :: post) d =
          MemDb.run K b post (MemDb.run K b (pre ++ [(O, op)]) d) := by
        intro pre
        induction pre with
        | nil => intro d; rfl
        | cons a r ih => intro d; exact ih _
      exact this pre _
    rw [e2]
    apply e
    rw [MemDb.run_snoc, MemDb.step_poisons]
    exact h

/-- A database with the contents of the history. -/
def Holds (K : HashEq) (b : Build) (c : List (HashOrder × Op)) (d : MemDb) : Prop :=
  Mem.Eqv K (MemDb.run K b c MemDb.new).mem d.mem ∧ (MemDb.run K b c MemDb.new).poisoned = d.poisoned

theorem holds_new : Holds K b [] MemDb.new :=
  ⟨⟨_, rfl, fun n => by rw [show (MemDb.run K b [] MemDb.new).mem.propertyValues.get n = none from rfl]; trivial⟩, rfl⟩

theorem Holds.step {c : List (HashOrder × Op)} {d : MemDb} (h : Holds K b c d) (O : HashOrder) (op : Op) :
    Holds K b (c ++ [(O, op)]) (MemDb.step K b O op d).1 ∧ memAnswer K b c O op = (MemDb.step K b O op d).2 := by
  have := MemDb.eqv_replies (b := b) [(O, op)] h.1 h.2
  refine ⟨⟨?_, ?_⟩, ?_⟩
  · rw [MemDb.run_snoc]; exact this.2.1
  · rw [MemDb.run_snoc]; exact this.2.2
  · have := this.1; simp only [Store.replies, List.cons.injEq] at this; exact this.1

/-- The file holds the saved history. -/
def FileHolds (K : HashEq) (b : Build) (C : ImageCodec) (p : Path) (s : List (HashOrder × Op)) (fs : Fs) : Prop :=
  (fs p = none ∧ s = []) ∨
    ∃ bytes i, fs p = some bytes ∧ C.dec bytes = some i ∧ Holds K b s ⟨i.load K, false⟩

theorem FileHolds.of_eq {C : ImageCodec} {p : Path} {s : List (HashOrder × Op)} {fs fs' : Fs} (h : FileHolds K b C p s fs)
    (e : fs' p = fs p) : FileHolds K b C p s fs' := by
  unfold FileHolds at *; rw [e]; exact h

theorem FileHolds.of_image {C : ImageCodec} {p : Path} {c : List (HashOrder × Op)} {d : MemDb} {fs : Fs} {Q : ImageOrder}
    (h : Holds K b c d) (hp : d.poisoned = false) (hC : C.dec (C.enc (d.mem.image Q)) = some (d.mem.image Q))
    (e : fs p = some (C.enc (d.mem.image Q))) : FileHolds K b C p c fs :=
  Or.inr ⟨_, _, e, hC, h.1.trans (Mem.image_load h.1.distinct Q), h.2.trans hp⟩

/-- World and histories agree. -/
def Tracks (K : HashEq) (b : Build) (C : ImageCodec) (p : Path) (w : World) (D : Durable) : Prop :=
  FileHolds K b C p D.saved w.fs ∧
    match w.proc, D.running with
    | none, none => True
    | some h, some c => h.path = some p ∧ Holds K b c h.db
    | _, _ => False

theorem syncOps_done {p : Path} {io : SyncIo} {bytes : Bytes} (hw : io.Writes bytes) (hf : io.tailFail = none) (fs : Fs)
    (hok : (syncOps (some p) io).2 = .ok ()) : Fs.run (syncOps (some p) io).1 fs p = some bytes := by
  rcases syncOps_shape p io _ hw hf with ⟨_, ws, hws, hops⟩ | ⟨hne, _⟩
  · rw [hops, Fs.run_append]
    have := (Fs.append_run io.temp ws ((FsOp.create io.temp).apply fs) [] (by simp [FsOp.apply])).1
    show (FsOp.rename io.temp p).apply (Fs.run (ws.map (.append io.temp)) ((FsOp.create io.temp).apply fs)) p = _
    simp only [FsOp.apply, if_true] at this ⊢
    rw [this, hws]; simp
  · exact absurd hok hne

theorem syncOps_result (p : Path) (io : SyncIo) :
    (io.Fails ∧ ∃ f, (syncOps (some p) io).2 = .error f) ∨ (¬ io.Fails ∧ (syncOps (some p) io).2 = .ok ()) := by
  unfold syncOps SyncIo.Fails
  cases io.createOk <;> cases io.headFail <;> cases io.renameOk <;> simp

theorem tracks_step {C : ImageCodec} {p : Path} {w : World} {D : Durable} (h : Tracks K b C p w D) (e : ServerEv)
    (hs : World.Sane K b C p [e] w) :
    ∃ D', Durable.Step (memAnswer K b) D e (w.step K b C (some p) e).2 D' ∧ Tracks K b C p (w.step K b C (some p) e).1 D' := by
  obtain ⟨fs, proc⟩ := w
  obtain ⟨s, running⟩ := D
  obtain ⟨hf, hr⟩ := h
  replace hs := hs.1
  cases e with
  | start =>
    cases proc with
    | some h => exact hs.elim
    | none =>
      cases running with
      | some c => exact hr.elim
      | none =>
        refine ⟨⟨s, some s⟩, ?_⟩
        simp only [World.step, startMemory]
        rcases hf with ⟨h1, h2⟩ | ⟨bytes, i, h1, h2, h3⟩
        · simp only at h1 h2
          subst h2
          simp only [h1, Option.isSome_none, Bool.false_eq_true, if_false]
          exact ⟨.start _, Or.inl ⟨h1, rfl⟩, rfl, holds_new⟩
        · simp only at h1
          simp only [h1, Option.isSome_some, if_true, MemHandle.readMsgpack, h2]
          exact ⟨.start _, Or.inr ⟨bytes, i, h1, h2, h3⟩, rfl, h3⟩
  | call O op Q io =>
    cases proc with
    | none => exact hs.elim
    | some h =>
      cases running with
      | none => exact hr.elim
      | some c =>
        obtain ⟨hpath, hh⟩ := hr
        by_cases hop : op = .sync
        · subst hop
          obtain ⟨ht, htf, hw, hC⟩ := hs rfl
          simp only [World.step, if_true, MemHandle.sync]
          cases hp : h.db.poisoned with
          | true =>
            refine ⟨⟨s, some c⟩, ?_⟩
            simp only [if_true]
            exact ⟨.notSaved _ _ _ _ _ _ (Or.inr ((poisoned_iff c).1 (hh.2.trans hp))), hf, hpath, hh⟩
          | false =>
            have hnp : ¬ Panicked (memAnswer K b) c := fun hx => by
              have := (poisoned_iff c).2 hx
              rw [hh.2, hp] at this; cases this
            simp only [Bool.false_eq_true, if_false, hpath]
            rcases syncOps_result p io with ⟨hfail, f, hres⟩ | ⟨hfail, hres⟩
            · refine ⟨⟨s, some c⟩, ?_⟩
              simp only [hres, Except.map]
              refine ⟨.notSaved _ _ _ _ _ _ (Or.inl hfail), hf.of_eq ?_, hpath, hh⟩
              rcases syncOps_shape p io _ hw htf with ⟨h1, _⟩ | ⟨_, hon⟩
              · rw [hres] at h1; cases h1
              · exact Fs.run_other (Ne.symm ht) _ _ hon
            · refine ⟨⟨c, some c⟩, ?_⟩
              simp only [hres, Except.map]
              exact ⟨.saved _ _ _ _ _ hfail hnp, FileHolds.of_image hh hp hC (syncOps_done hw htf fs hres), hpath, hh⟩
        · refine ⟨⟨s, some (c ++ [(O, op)])⟩, ?_⟩
          simp only [World.step, hop, if_false]
          obtain ⟨h1, h2⟩ := hh.step O op
          rw [← h2]
          exact ⟨.call _ _ _ _ _ _ hop, hf, hpath, h1⟩
  | kill =>
    cases proc with
    | none => exact hs.elim
    | some h =>
      cases running with
      | none => exact hr.elim
      | some c => exact ⟨⟨s, none⟩, .kill _ _, hf, trivial⟩
  | killInSync Q io k cut =>
    cases proc with
    | none => exact hs.elim
    | some h =>
      cases running with
      | none => exact hr.elim
      | some c =>
        obtain ⟨hpath, hh⟩ := hr
        obtain ⟨hp, ht, htf, hw, hC⟩ := hs
        simp only [World.step, hp, Bool.false_eq_true, if_false, hpath]
        rcases (C32_memory_crash _ p fs io ht hw htf k cut).1 with h1 | h1
        · exact ⟨⟨s, none⟩, .killedOld _ _ _ _ _ _, hf.of_eq h1, trivial⟩
        · exact ⟨⟨c, none⟩, .killedNew _ _ _ _ _ _, FileHolds.of_image hh hp hC h1, trivial⟩

/-- A server that is started with a path, killed and started again any number of times, at any moment (also during
`sync`): it always starts, holds what was saved by the last `sync` that succeeded (or, if it was killed during a later
`sync`, possibly what that was about to save) and answers exactly as a database on which the calls of that history were
made. `fs` is any file system without a file at the path. -/
theorem C57_memory (C : ImageCodec) (p : Path) (fs : Fs) (h : fs p = none) (evs : List ServerEv)
    (hs : World.Sane K b C p evs ⟨fs, none⟩) :
    ∃ D, Durable.Run (memAnswer K b) ⟨[], none⟩ evs (World.run K b C (some p) evs ⟨fs, none⟩) D := by
  suffices ∀ (evs : List ServerEv) (w : World) (D : Durable), Tracks K b C p w D → World.Sane K b C p evs w →
      ∃ D', Durable.Run (memAnswer K b) D evs (World.run K b C (some p) evs w) D' from
    this evs _ _ ⟨Or.inl ⟨h, rfl⟩, trivial⟩ hs
  intro evs
  induction evs with
  | nil => intro w D _ _; exact ⟨D, .nil D⟩
  | cons e r ih =>
    intro w D ht hs
    obtain ⟨D1, h1, h2⟩ := tracks_step ht e ⟨hs.1, trivial⟩
    obtain ⟨D2, h3⟩ := ih _ _ h2 hs.2
    exact ⟨D2, .cons h1 h3⟩

/-- A file that is not an image keeps the server from starting, and is left alone. -/
theorem C57_damaged (C : ImageCodec) (p : Path) (fs : Fs) (bytes : Bytes) (h : fs p = some bytes) (hd : C.dec bytes = none) :
    World.step K b C (some p) ⟨fs, none⟩ .start = (⟨fs, none⟩, .refused) := by
  simp [World.step, startMemory, h, MemHandle.readMsgpack, hd]

/-- Without a path nothing is ever saved: whatever happens, the file system is unchanged, `sync` reports success (unless a
call has panicked), and every server starts empty. -/
theorem C57_volatile (C : ImageCodec) (fs : Fs) (evs : List ServerEv) (w : World)
    (hw : w = World.final K b C none evs ⟨fs, none⟩) :
    w.fs = fs ∧ (w.proc = none → w.step K b C none .start = (⟨fs, some ⟨MemDb.new, none⟩⟩, .started)) ∧
    (∀ h O Q io, w.proc = some h → h.db.poisoned = false →
      w.step K b C none (.call O .sync Q io) = (w, .reply (.ok .unit))) := by
  have key : ∀ (evs : List ServerEv) (w : World), w.fs = fs → (∀ h, w.proc = some h → h.path = none) →
      (World.final K b C none evs w).fs = fs ∧ ∀ h, (World.final K b C none evs w).proc = some h → h.path = none := by
    intro evs
    induction evs with
    | nil => intro w h1 h2; exact ⟨h1, h2⟩
    | cons e r ih =>
      intro w' h1 h2
      suffices (w'.step K b C none e).1.fs = fs ∧ (∀ h, (w'.step K b C none e).1.proc = some h → h.path = none) from
        ih _ this.1 this.2
      obtain ⟨f, pr⟩ := w'
      simp only at h1 h2
      subst h1
      cases pr with
      | none =>
        cases e <;> simp [World.step, startMemory, MemHandle.newDb]
      | some h =>
        have hn := h2 h rfl
        obtain ⟨d, path⟩ := h
        simp only at hn; subst hn
        cases e with
        | start => simp [World.step]
        | call O op Q io =>
          by_cases hop : op = .sync
          · subst hop
            cases hp : d.poisoned <;> simp [World.step, MemHandle.sync, hp, syncOps, Fs.run]
          · simp [World.step, hop]
        | kill => simp [World.step]
        | killInSync Q io k cut =>
          cases hp : d.poisoned <;> simp [World.step, hp, syncOps, crashOps, Fs.run]
  obtain ⟨h1, hn⟩ := key evs ⟨fs, none⟩ rfl (fun h hh => by cases hh)
  rw [← hw] at h1 hn
  refine ⟨h1, fun hp => ?_, fun h O Q io hp hpo => ?_⟩
  · simp [World.step, hp, startMemory, MemHandle.newDb, h1]
  · obtain ⟨f, pr⟩ := w
    simp only at hp; subst hp
    simp [World.step, MemHandle.sync, hpo, hn h rfl, syncOps, Fs.run, Except.map]

namespace W
/-- A codec that knows the empty database and the one with a single vertex. -/
def img0 : Image := MemDb.new.mem.image .sorted
def img1 : Image := (MemDb.step HashEq.byHash .debug .sorted (.createVertex ⟨u 1, t⟩) MemDb.new).1.mem.image .sorted
def tinyCodec : ImageCodec :=
  ⟨fun i => if i = img1 then [3, 4] else [5], fun b => if b = [3, 4] then some img1 else if b = [5] then some img0 else none⟩

/-- Start, a vertex, a `sync` that is killed in the middle of a write, start, the vertex again, `sync`, a second vertex,
kill, start, query. -/
def serverLife : List ServerEv :=
  [.start, .call .sorted (.createVertex ⟨u 1, t⟩) .sorted (io []), .killInSync .sorted (io [3, 4]) 2 0,
   .start, .call .sorted (.createVertex ⟨u 1, t⟩) .sorted (io []), .call .sorted .sync .sorted (io [3, 4]),
   .call .sorted (.createVertex ⟨u 2, t⟩) .sorted (io []), .kill, .start, .call .sorted (.get .allVertex) .sorted (io [])]
end W

/-- The hypotheses are met, and the vertex is created twice (the first one was lost) while the unsaved one is gone. -/
example : World.Sane HashEq.byHash .debug W.tinyCodec [2] W.serverLife ⟨fun _ => none, none⟩ ∧
    (World.run HashEq.byHash .debug W.tinyCodec (some [2]) W.serverLife ⟨fun _ => none, none⟩).map
      (fun | .reply r => some r | _ => none) =
    [none, some (.ok (.bool true)), none, none, some (.ok (.bool true)), some (.ok .unit), some (.ok (.bool true)), none, none,
     some (.ok (.outputs [.vertices [⟨W.u 1, W.t⟩]]))] := by
  refine ⟨⟨trivial, fun h => (nomatch h), ⟨by decide +kernel, by decide +kernel, rfl, by unfold SyncIo.Writes; decide +kernel, by decide +kernel⟩, trivial,
    fun h => (nomatch h), fun _ => ⟨by decide +kernel, rfl, by unfold SyncIo.Writes; decide +kernel, by decide +kernel⟩, fun h => (nomatch h), trivial, trivial, fun h => (nomatch h), trivial⟩,
    by decide +kernel⟩

end IndraDB
