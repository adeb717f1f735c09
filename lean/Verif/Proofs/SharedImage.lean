import Verif.Spec.SharedImage
import Verif.Props.ServerMain
/-
Several servers that share an image file: the processes behave as the specification says.
-/
namespace IndraDB
variable {K : HashEq} {b : Build} {C : ImageCodec} {p : Path}

/-- How far a `sync` is: `own` is the temporary file, once it exists; `done`: the image has been moved to the target. -/
inductive SyncPhase (K : HashEq) (b : Build) (C : ImageCodec) (p : Path) (fs : Fs) (c : List (HashOrder × Op)) (d : MemDb) :
    Option Path → List FsOp → Res Unit → Bool → Prop
  | fresh (t : Path) (ws : List Bytes) (Q : ImageOrder) : t ≠ p → ws.flatten = C.enc (d.mem.image Q) →
      C.dec (C.enc (d.mem.image Q)) = some (d.mem.image Q) →
      SyncPhase K b C p fs c d none (.create t :: (ws.map (.append t) ++ [.rename t p])) (.ok ()) false
  | freshBad (t : Path) (ws : List Bytes) (f : Fault) : t ≠ p →
      SyncPhase K b C p fs c d none (.create t :: (ws.map (.append t) ++ [.remove t])) (.error f) false
  | writing (t : Path) (ws : List Bytes) (Q : ImageOrder) (x : Bytes) : t ≠ p → fs t = some x →
      x ++ ws.flatten = C.enc (d.mem.image Q) → C.dec (C.enc (d.mem.image Q)) = some (d.mem.image Q) →
      SyncPhase K b C p fs c d (some t) (ws.map (.append t) ++ [.rename t p]) (.ok ()) false
  | writingBad (t : Path) (ws : List Bytes) (x : Bytes) (f : Fault) : t ≠ p → fs t = some x →
      SyncPhase K b C p fs c d (some t) (ws.map (.append t) ++ [.remove t]) (.error f) false
  | saved : SyncPhase K b C p fs c d none [] (.ok ()) true
  | failed (f : Fault) : SyncPhase K b C p fs c d none [] (.error f) false

/-- A process and what the specification says of it. -/
def ProcTracks (K : HashEq) (b : Build) (C : ImageCodec) (p : Path) (fs : Fs) :
    Option ServerProc → Option SharerState → Option Path → Prop
  | none, none, o => o = none
  | some (.starting f), some (.looking f'), o => o = none ∧ f = f' ∧ (f = true → (fs p).isSome = true)
  | some (.running h), some (.serving c), o => o = none ∧ h.path = some p ∧ Holds K b c h.db
  | some (.syncing h ops r), some (.saving c d), o => h.path = some p ∧ h.db.poisoned = false ∧ Holds K b c h.db ∧
      SyncPhase K b C p fs c h.db o ops r d
  | _, _, _ => False

/-- Processes and specification agree. -/
structure SharedTracks (K : HashEq) (b : Build) (C : ImageCodec) (p : Path) (w : SharedWorld) (s : Sharers)
    (own : Nat → Option Path) : Prop where
  file : (w.fs p = none ∧ s.saved = none) ∨
    ∃ c, s.saved = some c ∧ (w.fs p).isSome = true ∧ FileHolds K b C p c w.fs
  proc : ∀ i, ProcTracks K b C p w.fs (w.procs i) (s.server i) (own i)
  apart : ∀ i j t, own i = some t → own j = some t → i = j

theorem SyncPhase.own_ne {fs : Fs} {c : List (HashOrder × Op)} {d : MemDb} {o : Option Path} {ops : List FsOp} {r : Res Unit}
    {done : Bool} (h : SyncPhase K b C p fs c d o ops r done) {t : Path} (ht : o = some t) : t ≠ p ∧ (fs t).isSome = true := by
  cases h <;> simp_all

theorem SyncPhase.frame {fs fs' : Fs} {c : List (HashOrder × Op)} {d : MemDb} {o : Option Path} {ops : List FsOp}
    {r : Res Unit} {done : Bool} (h : SyncPhase K b C p fs c d o ops r done) (e : ∀ t, o = some t → fs' t = fs t) :
    SyncPhase K b C p fs' c d o ops r done := by
  cases h with
  | fresh t ws Q a b c => exact .fresh t ws Q a b c
  | freshBad t ws f a => exact .freshBad t ws f a
  | writing t ws Q x a b c d => exact .writing t ws Q x a (by rw [e t rfl]; exact b) c d
  | writingBad t ws x f a b => exact .writingBad t ws x f a (by rw [e t rfl]; exact b)
  | saved => exact .saved
  | failed f => exact .failed f

theorem ProcTracks.own_ne {fs : Fs} {x : Option ServerProc} {y : Option SharerState} {o : Option Path}
    (h : ProcTracks K b C p fs x y o) {t : Path} (ht : o = some t) : t ≠ p ∧ (fs t).isSome = true := by
  subst ht
  unfold ProcTracks at h
  split at h
  · cases h
  · cases h.1
  · cases h.1
  · exact h.2.2.2.own_ne rfl
  · exact h.elim

theorem ProcTracks.frame {fs fs' : Fs} {x : Option ServerProc} {y : Option SharerState} {o : Option Path}
    (h : ProcTracks K b C p fs x y o) (e : ∀ t, o = some t → fs' t = fs t)
    (hp : (fs p).isSome = true → (fs' p).isSome = true) : ProcTracks K b C p fs' x y o := by
  unfold ProcTracks at *
  split at h
  · exact h
  · exact ⟨h.1, h.2.1, fun hf => hp (h.2.2 hf)⟩
  · exact h
  · exact ⟨h.1, h.2.1, h.2.2.1, h.2.2.2.frame e⟩
  · exact h.elim

/-- Changing one process (and the files that no other process owns). -/
theorem SharedTracks.update {w : SharedWorld} {s : Sharers} {own : Nat → Option Path} (h : SharedTracks K b C p w s own)
    {fs' : Fs} {saved' : Option (List (HashOrder × Op))} (i : Nat) (x : Option ServerProc) (y : Option SharerState)
    (o : Option Path)
    (hfile : (fs' p = none ∧ saved' = none) ∨ ∃ c, saved' = some c ∧ (fs' p).isSome = true ∧ FileHolds K b C p c fs')
    (hp : (w.fs p).isSome = true → (fs' p).isSome = true)
    (hx : ProcTracks K b C p fs' x y o)
    (hfs : ∀ j t, j ≠ i → own j = some t → fs' t = w.fs t)
    (ho : ∀ t, o = some t → ∀ j, j ≠ i → own j ≠ some t) :
    SharedTracks K b C p ({ w with fs := fs' }.set i x) ({ s with saved := saved' }.set i y)
      (fun j => if j = i then o else own j) := by
  refine ⟨hfile, ?_, ?_⟩
  · intro j
    simp only [SharedWorld.set, Sharers.set]
    by_cases hj : j = i
    · simp only [hj, if_true]; exact hx
    · simp only [hj, if_false]
      exact (h.proc j).frame (fun t ht => hfs j t hj ht) hp
  · intro j k t hj hk
    by_cases hji : j = i <;> by_cases hki : k = i
    · rw [hji, hki]
    · simp only [hji, if_true] at hj
      simp only [hki, if_false] at hk
      exact absurd hk (ho t hj k hki)
    · simp only [hki, if_true] at hk
      simp only [hji, if_false] at hj
      exact absurd hj (ho t hk j hji)
    · simp only [hji, if_false] at hj
      simp only [hki, if_false] at hk
      exact h.apart j k t hj hk

/-- The same without a change of files. -/
theorem SharedTracks.update' {w : SharedWorld} {s : Sharers} {own : Nat → Option Path} (h : SharedTracks K b C p w s own)
    (i : Nat) (x : Option ServerProc) (y : Option SharerState) (hx : ProcTracks K b C p w.fs x y none) :
    SharedTracks K b C p (w.set i x) (s.set i y) (fun j => if j = i then none else own j) :=
  h.update i x y none h.file id hx (fun _ _ _ _ => rfl) (fun t ht => by cases ht)

theorem syncPhase_start {fs : Fs} {c : List (HashOrder × Op)} {h : MemHandle} {Q : ImageOrder} {io : SyncIo}
    (hs : SyncSane C p h Q io) :
    SyncPhase K b C p fs c h.db none (syncOps (some p) io).1 (syncOps (some p) io).2 false := by
  obtain ⟨h1, h2, h3, h4⟩ := hs
  unfold syncOps
  cases io.createOk with
  | false => exact .failed _
  | true =>
    simp only [Bool.not_true, Bool.false_eq_true, if_false]
    cases io.headFail with
    | some n => exact .freshBad _ _ _ h1
    | none =>
      simp only
      rw [h2]
      cases io.renameOk with
      | true => exact .fresh _ _ Q h1 (by rw [List.flatten_append]; exact h3) h4
      | false => exact .freshBad _ _ _ h1

theorem tracks_of {w : SharedWorld} {s : Sharers} {own : Nat → Option Path} (h : SharedTracks K b C p w s own) {i : Nat}
    {x : ServerProc} (hx : w.procs i = some x) : ∃ y, s.server i = some y ∧ ProcTracks K b C p w.fs (some x) (some y) (own i) := by
  have := h.proc i
  rw [hx] at this
  cases hy : s.server i with
  | none => rw [hy] at this; cases x <;> exact this.elim
  | some y => rw [hy] at this; exact ⟨y, rfl, this⟩

theorem sharedTracks_step {w w' : SharedWorld} {s : Sharers} {own : Nat → Option Path} {e : SharedEv}
    (h : SharedTracks K b C p w s own) (st : SharedWorld.Step K b C p w e w')
    (hs : ∀ i Q io h, e = .sync i Q io → w.procs i = some (.running h) → SyncSane C p h Q io) :
    ∃ s' own', Sharers.Step (memAnswer K b) s e s' ∧ SharedTracks K b C p w' s' own' := by
  cases st with
  | look i hi =>
    have hp := h.proc i
    rw [hi] at hp
    cases hy : s.server i with
    | some y => rw [hy] at hp; exact hp.elim
    | none =>
      have hf : (w.fs p).isSome = s.saved.isSome := by
        rcases h.file with ⟨a, b⟩ | ⟨c, a, b, _⟩
        · simp [a, b]
        · simp [a, b]
      refine ⟨_, _, .look s i hy, h.update' i _ _ ⟨rfl, hf, id⟩⟩
  | read i m hi hr =>
    obtain ⟨y, hy, ht⟩ := tracks_of h hi
    cases y with
    | looking f =>
      obtain ⟨_, hf, hsome⟩ := ht
      subst hf
      rcases h.file with ⟨a, _⟩ | ⟨c, a, _, hh⟩
      · simp [a] at hsome
      · refine ⟨_, _, .startSaved s i c hy a, h.update' i _ _ ?_⟩
        rcases hh with ⟨a, _⟩ | ⟨bytes, im, h1, h2, h3⟩
        · simp [a] at hsome
        · simp only [MemHandle.readMsgpack, h1, h2] at hr
          cases hr
          exact ⟨rfl, rfl, h3⟩
    | serving c => exact ht.elim
    | saving c d => exact ht.elim
  | refused i f hi hr =>
    obtain ⟨y, hy, ht⟩ := tracks_of h hi
    cases y with
    | looking f =>
      obtain ⟨_, hf, hsome⟩ := ht
      rcases h.file with ⟨a, _⟩ | ⟨c, a, _, hh⟩
      · simp [a] at hsome
      · rcases hh with ⟨a, _⟩ | ⟨bytes, im, h1, h2, h3⟩
        · simp [a] at hsome
        · simp [MemHandle.readMsgpack, h1, h2] at hr
    | serving c => exact ht.elim
    | saving c d => exact ht.elim
  | create i hi =>
    obtain ⟨y, hy, ht⟩ := tracks_of h hi
    cases y with
    | looking f =>
      obtain ⟨_, hf, _⟩ := ht
      subst hf
      exact ⟨_, _, .startNew s i hy, h.update' i _ _ ⟨rfl, rfl, holds_new⟩⟩
    | serving c => exact ht.elim
    | saving c d => exact ht.elim
  | call i m O op hi hop =>
    obtain ⟨y, hy, ht⟩ := tracks_of h hi
    cases y with
    | serving c =>
      obtain ⟨_, h1, h2⟩ := ht
      obtain ⟨h3, h4⟩ := h2.step O op
      rw [← h4]
      exact ⟨_, _, .call s i c O op hy, h.update' i _ _ ⟨rfl, h1, h3⟩⟩
    | looking f => exact ht.elim
    | saving c d => exact ht.elim
  | sync i m Q io hi hpo hw =>
    obtain ⟨y, hy, ht⟩ := tracks_of h hi
    cases y with
    | serving c =>
      obtain ⟨_, h1, h2⟩ := ht
      have hnp : ¬ Panicked (memAnswer K b) c := fun hx => by
        have := (poisoned_iff c).2 hx
        rw [h2.2, hpo] at this; cases this
      refine ⟨_, _, .sync s i c Q io hy hnp, h.update' i _ _ ⟨h1, hpo, h2, ?_⟩⟩
      rw [h1]
      exact syncPhase_start (hs i Q io m rfl hi)
    | looking f => exact ht.elim
    | saving c d => exact ht.elim
  | syncPanics i m hi hpo =>
    obtain ⟨y, hy, ht⟩ := tracks_of h hi
    cases y with
    | serving c => exact ⟨s, own, .syncPanics s i c hy ((poisoned_iff c).1 (ht.2.2.2.trans hpo)), h⟩
    | looking f => exact ht.elim
    | saving c d => exact ht.elim
  | sys i m o ops r hi hn =>
    obtain ⟨y, hy, ht⟩ := tracks_of h hi
    cases y with
    | saving c d =>
      obtain ⟨h1, h2, h3, h4⟩ := ht
      have hset : s.set i (some (.saving c d)) = s := by
        unfold Sharers.set
        have : (fun j => if j = i then some (SharerState.saving c d) else s.server j) = s.server := by
          funext j; split
          · subst_vars; exact hy.symm
          · rfl
        rw [this]
      -- a step on the temporary file `t` that the process has or creates
      have silent : ∀ (t : Path) (o' : Option Path), t ≠ p → (∀ x, x ≠ t → o.apply w.fs x = w.fs x) →
          (∀ j, j ≠ i → own j ≠ some t) → (∀ x, o' = some x → x = t) → d = false →
          SyncPhase K b C p (o.apply w.fs) c m.db o' ops r false →
          ∃ s' own', Sharers.Step (memAnswer K b) s (.sys i) s' ∧
            SharedTracks K b C p ({ w with fs := o.apply w.fs }.set i (some (.syncing m ops r))) s' own' := by
        intro t o' htp hoth hown ho' hd hph
        subst hd
        have hpp : o.apply w.fs p = w.fs p := hoth p (Ne.symm htp)
        have := h.update (fs' := o.apply w.fs) (saved' := s.saved) i (some (.syncing m ops r)) (some (.saving c false)) o'
          (by
            rcases h.file with ⟨a, b⟩ | ⟨c, a, b, hh⟩
            · exact .inl ⟨hpp.trans a, b⟩
            · exact .inr ⟨c, a, by rw [hpp]; exact b, hh.of_eq hpp⟩)
          (by rw [hpp]; exact id) ⟨h1, h2, h3, hph⟩
          (fun j x hj hx => hoth x (fun hxt => hown j hj (by rw [hx, hxt])))
          (fun x hx j hj => by rw [ho' x hx]; exact hown j hj)
        have e : ({ s with saved := s.saved } : Sharers).set i (some (.saving c false)) = s := hset
        rw [e] at this
        exact ⟨s, _, .silent s i c _ hy, this⟩
      generalize hops : o :: ops = L at h4
      generalize hown : own i = oi at h4
      have others : ∀ t, oi = some t → ∀ j, j ≠ i → own j ≠ some t := fun t ht j hj hc =>
        hj (h.apart j i t hc (by rw [hown]; exact ht))
      cases h4 with
      | fresh t ws Q a b' c' =>
        obtain ⟨rfl, rfl⟩ := List.cons.inj hops
        have hnone := hn t rfl
        refine silent t (some t) a (fun x hx => by simp [FsOp.apply, hx]) ?_ (fun x hx => by simpa using hx.symm) rfl
          (.writing t ws Q [] a (by simp [FsOp.apply]) (by simpa using b') c')
        intro j hj hc
        have := ((h.proc j).own_ne hc).2
        rw [hnone] at this; cases this
      | freshBad t ws f a =>
        obtain ⟨rfl, rfl⟩ := List.cons.inj hops
        have hnone := hn t rfl
        refine silent t (some t) a (fun x hx => by simp [FsOp.apply, hx]) ?_ (fun x hx => by simpa using hx.symm) rfl
          (.writingBad t ws [] f a (by simp [FsOp.apply]))
        intro j hj hc
        have := ((h.proc j).own_ne hc).2
        rw [hnone] at this; cases this
      | writing t ws Q x a b' c' d' =>
        cases ws with
        | cons v r' =>
          obtain ⟨rfl, rfl⟩ := List.cons.inj hops
          exact silent t (some t) a (fun y hy => by simp [FsOp.apply, hy]) (others t rfl) (fun x hx => by simpa using hx.symm) rfl
            (.writing t r' Q (x ++ v) a (by simp [FsOp.apply, b']) (by rw [← c']; simp) d')
        | nil =>
          obtain ⟨rfl, rfl⟩ := List.cons.inj hops
          -- the image is moved to the target
          have hp' : (FsOp.rename t p).apply w.fs p = some (C.enc (m.db.mem.image Q)) := by
            simp only [FsOp.apply, if_true, b', ← c', List.flatten_nil, List.append_nil]
          refine ⟨_, _, .save s i c hy, h.update i _ _ none (.inr ⟨c, rfl, by rw [hp']; rfl, ?_⟩) (fun _ => by rw [hp']; rfl)
            ⟨h1, h2, h3, .saved⟩ ?_ (fun t ht => by cases ht)⟩
          · exact FileHolds.of_image h3 h2 d' hp'
          · intro j x' hj hx
            have hxp := ((h.proc j).own_ne hx).1
            have hxt : x' ≠ t := fun e => others t rfl j hj (by rw [hx, e])
            simp [FsOp.apply, hxp, hxt]
      | writingBad t ws x f a b' =>
        cases ws with
        | cons v r' =>
          obtain ⟨rfl, rfl⟩ := List.cons.inj hops
          exact silent t (some t) a (fun y hy => by simp [FsOp.apply, hy]) (others t rfl) (fun x hx => by simpa using hx.symm) rfl
            (.writingBad t r' (x ++ v) f a (by simp [FsOp.apply, b']))
        | nil =>
          obtain ⟨rfl, rfl⟩ := List.cons.inj hops
          exact silent t none a (fun y hy => by simp [FsOp.apply, hy]) (others t rfl) (fun x hx => by cases hx) rfl (.failed f)
      | saved => cases hops
      | failed f => cases hops
    | looking f => exact ht.elim
    | serving c => exact ht.elim
  | synced i m r hi =>
    obtain ⟨y, hy, ht⟩ := tracks_of h hi
    cases y with
    | saving c d =>
      obtain ⟨h1, h2, h3, h4⟩ := ht
      generalize hL : ([] : List FsOp) = L at h4
      generalize own i = oi at h4
      cases h4 with
      | saved => exact ⟨_, _, .synced s i c hy, h.update' i _ _ ⟨rfl, h1, h3⟩⟩
      | failed f => exact ⟨_, _, .notSynced s i c f hy, h.update' i _ _ ⟨rfl, h1, h3⟩⟩
      | fresh => cases hL
      | freshBad => cases hL
      | writing t ws => cases ws <;> cases hL
      | writingBad t ws => cases ws <;> cases hL
    | looking f => exact ht.elim
    | serving c => exact ht.elim
  | kill i x hi =>
    obtain ⟨y, hy, ht⟩ := tracks_of h hi
    exact ⟨_, _, .kill s i y hy, h.update' i none none rfl⟩
  | killWriting i m t v ops r cut hi =>
    obtain ⟨y, hy, ht⟩ := tracks_of h hi
    refine ⟨s.set i none, fun j => if j = i then none else own j, .killWriting s i y cut hy, ?_⟩
    cases y with
    | saving c d =>
      obtain ⟨h1, h2, h3, h4⟩ := ht
      have key : own i = some t := by
        generalize hops : FsOp.append t v :: ops = L at h4
        generalize own i = oi at h4 ⊢
        cases h4 with
        | saved => cases hops
        | failed f => cases hops
        | fresh => cases hops
        | freshBad => cases hops
        | writing t' ws => cases ws <;> cases hops; rfl
        | writingBad t' ws => cases ws <;> cases hops; rfl
      have htp : t ≠ p := ((h.proc i).own_ne key).1
      have hpp : (FsOp.append t (v.take cut)).apply w.fs p = w.fs p := by simp [FsOp.apply, Ne.symm htp]
      exact h.update i none none none
        (by
          rcases h.file with ⟨a, b⟩ | ⟨c, a, b, hh⟩
          · exact .inl ⟨hpp.trans a, b⟩
          · exact .inr ⟨c, a, by rw [hpp]; exact b, hh.of_eq hpp⟩)
        (by rw [hpp]; exact id) rfl
        (fun j x hj hx => by
          have hxt : x ≠ t := fun e => hj (h.apart j i t (by rw [hx, e]) key)
          simp [FsOp.apply, hxt])
        (fun t ht => by cases ht)
    | looking f => exact ht.elim
    | serving c => exact ht.elim

end IndraDB
