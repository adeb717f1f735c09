import Verif.Proofs.SharedImage
/-
C81: several servers with the same `--persist-path`.
-/
namespace IndraDB
variable {K : HashEq} {b : Build} {C : ImageCodec} {p : Path}

/-- Any number of servers that are given the same path, that are started, called, killed and started again at any moment, and
whose `sync`s interleave system call by system call: what is seen is what `Sharers` allows. In particular the file always holds
exactly the calls of one server at one moment, never a mixture or a part. `fs` is any file system without a file at the path. -/
theorem C81_memory_shared (fs : Fs) (h : fs p = none) (evs : List SharedEv) (w : SharedWorld)
    (hr : SharedWorld.Run K b C p ⟨fs, fun _ => none⟩ evs w) :
    ∃ s, Sharers.Run (memAnswer K b) ⟨none, fun _ => none⟩ evs s ∧
      ((w.fs p = none ∧ s.saved = none) ∨ ∃ c bytes i, s.saved = some c ∧ w.fs p = some bytes ∧ C.dec bytes = some i ∧
        ∀ hist, (memStore K b).replies hist ⟨i.load K, false⟩ = (memStore K b).replies hist ((memStore K b).run c MemDb.new)) := by
  suffices ∃ s own, Sharers.Run (memAnswer K b) ⟨none, fun _ => none⟩ evs s ∧ SharedTracks K b C p w s own by
    obtain ⟨s, own, h1, h2⟩ := this
    refine ⟨s, h1, ?_⟩
    rcases h2.file with a | ⟨c, a, b', d⟩
    · exact .inl a
    · rcases d with ⟨d, _⟩ | ⟨bytes, i, d1, d2, d3⟩
      · simp [d] at b'
      · exact .inr ⟨c, bytes, i, a, d1, d2, fun hist => by
          have e : (memStore K b).run c MemDb.new = MemDb.run K b c MemDb.new := memStore_run c _
          rw [e]; exact ((MemDb.eqv_replies (b := b) hist d3.1 d3.2).1).symm⟩
  induction hr with
  | nil =>
    exact ⟨_, fun _ => none, .nil _, .inl ⟨h, rfl⟩, fun _ => rfl, fun _ _ _ h => by cases h⟩
  | snoc r st hs ih =>
    obtain ⟨s, own, h1, h2⟩ := ih
    obtain ⟨s', own', h3, h4⟩ := sharedTracks_step h2 st hs
    exact ⟨s', own', .snoc h1 h3, h4⟩

/-- No server is ever refused: whatever moment it reads the file, there is a complete image. -/
theorem C81_memory_never_refused (fs : Fs) (h : fs p = none) (evs : List SharedEv) (w : SharedWorld)
    (hr : SharedWorld.Run K b C p ⟨fs, fun _ => none⟩ evs w) (i : Nat) : SharedEv.refused i ∉ evs := by
  obtain ⟨s, hs, h3⟩ := C81_memory_shared fs h evs w hr
  clear hr h3
  generalize (⟨none, fun _ => none⟩ : Sharers) = s0 at hs
  induction hs with
  | nil => simp
  | snoc _ st ih =>
    intro hm
    rcases List.mem_append.1 hm with hm | hm
    · exact ih hm
    · simp only [List.mem_singleton] at hm
      subst hm
      cases st

/-- A file that is no image is never taken for one, nor for no file at all, by any of the servers: none of them ever starts, and the
file stays as it is. -/
theorem C81_memory_unreadable (fs : Fs) (bytes : Bytes) (h : fs p = some bytes) (hd : C.dec bytes = none) (evs : List SharedEv)
    (w : SharedWorld) (hr : SharedWorld.Run K b C p ⟨fs, fun _ => none⟩ evs w) :
    w.fs = fs ∧ ∀ i, SharedEv.started i ∉ evs := by
  suffices w.fs = fs ∧ (∀ i x, w.procs i = some x → x = .starting true) ∧ ∀ i, SharedEv.started i ∉ evs from ⟨this.1, this.2.2⟩
  generalize hw : (⟨fs, fun _ => none⟩ : SharedWorld) = w0 at hr
  induction hr with
  | nil => subst hw; exact ⟨rfl, by simp, by simp⟩
  | snoc r st hs ih =>
    obtain ⟨h1, h2, h3⟩ := ih
    have bad : ∀ h, MemHandle.readMsgpack K.finder C fs p ≠ .ok h := by
      intro h' hh
      simp [MemHandle.readMsgpack, h, hd] at hh
    have put : ∀ (w : SharedWorld) i x, (∀ j y, w.procs j = some y → y = .starting true) → (∀ y, x = some y → y = .starting true) →
        ∀ j y, (w.set i x).procs j = some y → y = .starting true := by
      intro w i x a c j y e
      simp only [SharedWorld.set] at e
      split at e
      · exact c y e
      · exact a j y e
    cases st with
    | look i hi => exact ⟨h1, put _ _ _ h2 (by simp [h1, h]), by simpa using h3⟩
    | read i h' hi hk => exact absurd (h1 ▸ hk) (bad h')
    | refused i f hi hk => exact ⟨h1, put _ _ _ h2 (by simp), by simpa using h3⟩
    | create i hi => cases h2 i _ hi
    | call i h' O op hi => cases h2 i _ hi
    | sync i h' Q io hi => cases h2 i _ hi
    | syncPanics i h' hi => cases h2 i _ hi
    | sys i h' o ops r' hi => cases h2 i _ hi
    | synced i h' r' hi => cases h2 i _ hi
    | kill i x hi => exact ⟨h1, put _ _ _ h2 (by simp), by simpa using h3⟩
    | killWriting i h' t c ops r' cut hi => cases h2 i _ hi

/-- A concrete case: two servers look at the file `[9]`, which is no image, and both exit. -/
example : ∃ w, SharedWorld.Run HashEq.byHash .debug W.tinyCodec [2] ⟨fun q => if q = [2] then some [9] else none, fun _ => none⟩
    [.look 1, .look 2, .refused 1, .refused 2] w := by
  have no : ∀ {e : SharedEv} {w : SharedWorld}, (∀ i Q io, e ≠ .sync i Q io) →
      ∀ i Q io h, e = .sync i Q io → w.procs i = some (.running h) → SyncSane W.tinyCodec [2] h Q io :=
    fun hne i Q io h he _ => absurd he (hne i Q io)
  have r0 := SharedWorld.Run.nil (F := HashEq.byHash.finder) (b := .debug) (C := W.tinyCodec) (p := [2])
    ⟨fun q => if q = [2] then some [9] else none, fun _ => none⟩
  have r1 := r0.snoc (.look _ 1 rfl) (no nofun)
  have r2 := r1.snoc (.look _ 2 rfl) (no nofun)
  have r3 := r2.snoc (.refused _ 1 _ rfl rfl) (no nofun)
  have r4 := r3.snoc (.refused _ 2 _ rfl rfl) (no nofun)
  exact ⟨_, r4⟩

/-- As long as no other server uses `sync`: when a `sync` of server `i` has returned `Ok`, the calls of that server are what is
saved, and what the next server starts with. (For any number of servers that read; with other writers see
`C81_memory_lost_refuted`.) -/
theorem C81_memory_sole_writer_partial (fs : Fs) (h : fs p = none) (evs : List SharedEv) (w : SharedWorld) (i : Nat)
    (hr : SharedWorld.Run K b C p ⟨fs, fun _ => none⟩ (evs ++ [.synced i (.ok ())]) w)
    (hi : ∀ j Q io, SharedEv.sync j Q io ∈ evs → j = i) :
    ∃ s c, Sharers.Run (memAnswer K b) ⟨none, fun _ => none⟩ (evs ++ [.synced i (.ok ())]) s ∧
      s.server i = some (.serving c) ∧ s.saved = some c := by
  obtain ⟨s, hs, _⟩ := C81_memory_shared fs h _ w hr
  have key : ∀ evs s, Sharers.Run (memAnswer K b) ⟨none, fun _ => none⟩ evs s → (∀ j Q io, SharedEv.sync j Q io ∈ evs → j = i) →
      (∀ j c d, s.server j = some (.saving c d) → j = i) ∧ (∀ c, s.server i = some (.saving c true) → s.saved = some c) := by
    intro evs s hs
    induction hs with
    | nil => intro _; exact ⟨by simp, by simp⟩
    | @snoc s1 s2 evs e _ st ih =>
      intro hi
      obtain ⟨h1, h2⟩ := ih (fun j Q io hm => hi j Q io (List.mem_append_left _ hm))
      have put : ∀ (k : Nat) (x : Option SharerState), (∀ c d, x ≠ some (.saving c d)) →
          (∀ j c d, (s1.set k x).server j = some (.saving c d) → j = i) ∧
          (∀ c, (s1.set k x).server i = some (.saving c true) → (s1.set k x).saved = some c) := by
        intro k x hx
        refine ⟨fun j c d hj => ?_, fun c hc => ?_⟩
        · simp only [Sharers.set] at hj
          split at hj
          · exact absurd hj (hx c d)
          · exact h1 j c d hj
        · simp only [Sharers.set] at hc
          split at hc
          · exact absurd hc (hx c true)
          · exact h2 c hc
      cases st with
      | look k hk => exact put k _ (by simp)
      | startSaved k c hk hc => exact put k _ (by simp)
      | startNew k hk => exact put k _ (by simp)
      | call k c O op hk => exact put k _ (by simp)
      | sync k c Q io hk hp =>
        have : k = i := hi k Q io (by simp)
        subst this
        refine ⟨fun j c d hj => ?_, fun c hc => ?_⟩
        · simp only [Sharers.set] at hj
          split at hj
          · assumption
          · exact h1 j c d hj
        · simp [Sharers.set] at hc
      | syncPanics k c hk hp => exact ⟨h1, h2⟩
      | silent k c d hk => exact ⟨h1, h2⟩
      | save k c hk =>
        have : k = i := h1 k c _ hk
        subst this
        refine ⟨fun j c d hj => ?_, fun c hc => ?_⟩
        · simp only [Sharers.set] at hj
          split at hj
          · assumption
          · exact h1 j c d hj
        · simp only [Sharers.set, if_true, Option.some.injEq, SharerState.saving.injEq, and_true] at hc
          simp [Sharers.set, hc]
      | synced k c hk => exact put k _ (by simp)
      | notSynced k c f hk => exact put k _ (by simp)
      | kill k x hk => exact put k _ (by simp)
      | killWriting k x cut hk => exact put k _ (by simp)
  have last : ∀ L s, Sharers.Run (memAnswer K b) ⟨none, fun _ => none⟩ L s → ∀ evs, L = evs ++ [.synced i (.ok ())] →
      ∃ s1, Sharers.Run (memAnswer K b) ⟨none, fun _ => none⟩ evs s1 ∧ Sharers.Step (memAnswer K b) s1 (.synced i (.ok ())) s := by
    intro L s hs
    cases hs with
    | nil => intro evs he; simp at he
    | @snoc s1 _ evs' e r st =>
      intro evs he
      obtain ⟨h1, h2⟩ := List.append_inj' he rfl
      subst h1
      obtain ⟨h3, _⟩ := List.cons.inj h2
      subst h3
      exact ⟨s1, r, st⟩
  obtain ⟨s1, r, st⟩ := last _ _ hs evs rfl
  cases st with
  | synced _ c hk => exact ⟨_, c, .snoc r (.synced _ _ c hk), by simp [Sharers.set], (key _ _ r hi).2 c hk⟩

/-! ### What is not true -/

namespace W
/-- I/O without errors, with the given temporary file. -/
def ioAt (t : Path) (x : Bytes) : SyncIo := ⟨t, true, [x.take 1], [x.drop 1], none, none, true⟩

/-- Two servers are started. The first one gets a vertex and saves it; the second one, which is empty, saves too. Both `sync`s
return `Ok`, and their system calls interleave. A third server is asked for all vertices. -/
def lostSync : List SharedEv :=
  [.look 1, .look 2, .started 1, .started 2, .call 1 .sorted (.createVertex ⟨u 1, t⟩) (.ok (.bool true)),
   .sync 1 .sorted (ioAt [1] [3, 4]), .sync 2 .sorted (ioAt [6] [5]), .sys 1, .sys 2, .sys 1, .sys 2, .sys 1, .sys 1,
   .synced 1 (.ok ()), .sys 2, .sys 2, .synced 2 (.ok ()), .kill 1, .kill 2,
   .look 3, .started 3, .call 3 .sorted (.get .allVertex) (.ok (.outputs [.vertices []]))]

theorem tinyCodec_sane0 : SyncSane tinyCodec [2] ⟨MemDb.new, some [2]⟩ .sorted (ioAt [6] [5]) :=
  ⟨by decide +kernel, rfl, by unfold SyncIo.Writes; decide +kernel, by decide +kernel⟩

theorem tinyCodec_sane1 : SyncSane tinyCodec [2]
    ⟨(MemDb.step HashEq.byHash .debug .sorted (.createVertex ⟨u 1, t⟩) MemDb.new).1, some [2]⟩ .sorted (ioAt [1] [3, 4]) :=
  ⟨by decide +kernel, rfl, by unfold SyncIo.Writes; decide +kernel, by decide +kernel⟩
end W

/-- A `sync` that returned `Ok` does not protect against the other servers: the vertex is gone. -/
theorem C81_memory_lost_refuted :
    ∃ w, SharedWorld.Run HashEq.byHash .debug W.tinyCodec [2] ⟨fun _ => none, fun _ => none⟩ W.lostSync w := by
  have no : ∀ {e : SharedEv} {w : SharedWorld}, (∀ i Q io, e ≠ .sync i Q io) →
      ∀ i Q io h, e = .sync i Q io → w.procs i = some (.running h) → SyncSane W.tinyCodec [2] h Q io :=
    fun hne i Q io h he _ => absurd he (hne i Q io)
  have r0 := SharedWorld.Run.nil (F := HashEq.byHash.finder) (b := .debug) (C := W.tinyCodec) (p := [2]) ⟨fun _ => none, fun _ => none⟩
  have r1 := r0.snoc (.look _ 1 rfl) (no nofun)
  have r2 := r1.snoc (.look _ 2 rfl) (no nofun)
  have r3 := r2.snoc (.create _ 1 rfl) (no nofun)
  have r4 := r3.snoc (.create _ 2 rfl) (no nofun)
  have r5 := r4.snoc (.call _ 1 _ .sorted (.createVertex ⟨W.u 1, W.t⟩) rfl (by simp)) (no nofun)
  have r6 := r5.snoc (.sync _ 1 _ .sorted (W.ioAt [1] [3, 4]) rfl rfl W.tinyCodec_sane1.2.2.1)
    (fun i Q io h he hr => by cases he; cases hr; exact W.tinyCodec_sane1)
  have r7 := r6.snoc (.sync _ 2 _ .sorted (W.ioAt [6] [5]) rfl rfl W.tinyCodec_sane0.2.2.1)
    (fun i Q io h he hr => by cases he; cases hr; exact W.tinyCodec_sane0)
  have r8 := r7.snoc (.sys _ 1 _ _ _ _ rfl (fun t ht => rfl)) (no nofun)
  have r9 := r8.snoc (.sys _ 2 _ _ _ _ rfl (fun t ht => by cases ht; rfl)) (no nofun)
  have r10 := r9.snoc (.sys _ 1 _ _ _ _ rfl nofun) (no nofun)
  have r11 := r10.snoc (.sys _ 2 _ _ _ _ rfl nofun) (no nofun)
  have r12 := r11.snoc (.sys _ 1 _ _ _ _ rfl nofun) (no nofun)
  have r13 := r12.snoc (.sys _ 1 _ _ _ _ rfl nofun) (no nofun)
  have r14 := r13.snoc (.synced _ 1 _ _ rfl) (no nofun)
  have r15 := r14.snoc (.sys _ 2 _ _ _ _ rfl nofun) (no nofun)
  have r16 := r15.snoc (.sys _ 2 _ _ _ _ rfl nofun) (no nofun)
  have r17 := r16.snoc (.synced _ 2 _ _ rfl) (no nofun)
  have r18 := r17.snoc (.kill _ 1 _ rfl) (no nofun)
  have r19 := r18.snoc (.kill _ 2 _ rfl) (no nofun)
  have r20 := r19.snoc (.look _ 3 rfl) (no nofun)
  have r21 := r20.snoc (.read _ 3 ⟨⟨W.img0.load HashEq.byHash, false⟩, some [2]⟩ rfl (by rfl)) (no nofun)
  have r22 := r21.snoc (.call _ 3 _ .sorted (.get .allVertex) rfl (by simp)) (no nofun)
  exact ⟨_, r22⟩

/-- The hypotheses are met by these servers; and up to the first `synced` also those of `C81_memory_sole_writer_partial`, if the
second server does not use `sync`. -/
example : ∃ s, Sharers.Run (memAnswer HashEq.byHash .debug) ⟨none, fun _ => none⟩ W.lostSync s := by
  obtain ⟨w, hw⟩ := C81_memory_lost_refuted
  obtain ⟨s, hs, _⟩ := C81_memory_shared _ rfl _ _ hw
  exact ⟨s, hs⟩

example : ∃ w, SharedWorld.Run HashEq.byHash .debug W.tinyCodec [2] ⟨fun _ => none, fun _ => none⟩
    ([.look 1, .look 2, .started 1, .started 2, .call 1 .sorted (.createVertex ⟨W.u 1, W.t⟩) (.ok (.bool true)),
      .sync 1 .sorted (W.ioAt [1] [3, 4]), .sys 1, .sys 1, .sys 1, .sys 1] ++ [.synced 1 (.ok ())]) w := by
  have no : ∀ {e : SharedEv} {w : SharedWorld}, (∀ i Q io, e ≠ .sync i Q io) →
      ∀ i Q io h, e = .sync i Q io → w.procs i = some (.running h) → SyncSane W.tinyCodec [2] h Q io :=
    fun hne i Q io h he _ => absurd he (hne i Q io)
  have r0 := SharedWorld.Run.nil (F := HashEq.byHash.finder) (b := .debug) (C := W.tinyCodec) (p := [2]) ⟨fun _ => none, fun _ => none⟩
  have r1 := r0.snoc (.look _ 1 rfl) (no nofun)
  have r2 := r1.snoc (.look _ 2 rfl) (no nofun)
  have r3 := r2.snoc (.create _ 1 rfl) (no nofun)
  have r4 := r3.snoc (.create _ 2 rfl) (no nofun)
  have r5 := r4.snoc (.call _ 1 _ .sorted (.createVertex ⟨W.u 1, W.t⟩) rfl (by simp)) (no nofun)
  have r6 := r5.snoc (.sync _ 1 _ .sorted (W.ioAt [1] [3, 4]) rfl rfl W.tinyCodec_sane1.2.2.1)
    (fun i Q io h he hr => by cases he; cases hr; exact W.tinyCodec_sane1)
  have r7 := r6.snoc (.sys _ 1 _ _ _ _ rfl (fun t ht => rfl)) (no nofun)
  have r8 := r7.snoc (.sys _ 1 _ _ _ _ rfl nofun) (no nofun)
  have r9 := r8.snoc (.sys _ 1 _ _ _ _ rfl nofun) (no nofun)
  have r10 := r9.snoc (.sys _ 1 _ _ _ _ rfl nofun) (no nofun)
  exact ⟨_, r10.snoc (.synced _ 1 _ _ rfl) (no nofun)⟩

end IndraDB
