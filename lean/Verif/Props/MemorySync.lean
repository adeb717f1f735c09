import Verif.Proofs.MemorySync
import Verif.Props.Memory
/-
C32: persistence of the in-memory datastore.
-/
set_option linter.unusedSimpArgs false
namespace IndraDB
open Mem
variable {K : HashEq} {b : Build}

/-- Same contents: same replies for ever. -/
theorem MemDb.eqv_replies : ∀ (hist : List (HashOrder × Op)) {d d' : MemDb}, Mem.Eqv K d.mem d'.mem →
    d.poisoned = d'.poisoned → (memStore K b).replies hist d = (memStore K b).replies hist d' ∧
      Mem.Eqv K ((memStore K b).run hist d).mem ((memStore K b).run hist d').mem ∧
      ((memStore K b).run hist d).poisoned = ((memStore K b).run hist d').poisoned
  | [], _, _, h, hp => ⟨rfl, h, hp⟩
  | (O, op) :: r, d, d', h, hp => by
    have key : Mem.Eqv K (MemDb.step K b O op d).1.mem (MemDb.step K b O op d').1.mem ∧
        (MemDb.step K b O op d).1.poisoned = (MemDb.step K b O op d').1.poisoned ∧
        (MemDb.step K b O op d).2 = (MemDb.step K b O op d').2 := by
      unfold MemDb.step
      rw [← hp]
      cases d.poisoned with
      | true => exact ⟨h, hp, rfl⟩
      | false =>
        obtain ⟨h1, h2⟩ := h.dbStep (b := b) O op
        simp only [Bool.false_eq_true, if_false]
        generalize dbStep (txn K O b) op d.mem = u at h1 h2 ⊢
        generalize dbStep (txn K O b) op d'.mem = u' at h1 h2 ⊢
        obtain ⟨s, x⟩ := u
        obtain ⟨s', x'⟩ := u'
        simp only at h1 h2
        subst h2
        rcases x with (f | _) | a <;> exact ⟨h1, rfl, rfl⟩
    obtain ⟨h1, h2⟩ := MemDb.eqv_replies r key.1 key.2.1
    exact ⟨by simp only [Store.replies]; rw [show ((memStore K b).step O op d).2 = ((memStore K b).step O op d').2 from key.2.2]
              exact congrArg _ h1, h2⟩

theorem Mem.Eqv.graph {m m' : Mem} (h : Mem.Eqv K m m') : m.graph = m'.graph := by
  obtain ⟨pv, rfl, h⟩ := h
  have : ∀ n, (m.propertyValues.contains n) = (pv.contains n) := by
    intro n
    have := h n
    unfold SMap.contains
    generalize m.propertyValues.get n = a at this ⊢
    generalize pv.get n = a' at this ⊢
    cases a <;> cases a' <;> first | exact this.elim | rfl
  simp only [Mem.graph]
  congr 1
  funext n
  exact this n

/-! ### The file system during `sync` -/

theorem Fs.append_run (t : Path) (ws : List Bytes) : ∀ (fs : Fs) (c : Bytes), fs t = some c →
    Fs.run (ws.map (.append t)) fs t = some (c ++ ws.flatten) ∧
    ∀ x, x ≠ t → Fs.run (ws.map (.append t)) fs x = fs x := by
  induction ws with
  | nil => intro fs c h; exact ⟨by simp [Fs.run, h], fun _ _ => rfl⟩
  | cons w r ih =>
    intro fs c h
    have h2 : (FsOp.append t w).apply fs t = some (c ++ w) := by simp [FsOp.apply, h]
    obtain ⟨h3, h4⟩ := ih ((FsOp.append t w).apply fs) (c ++ w) h2
    refine ⟨?_, fun x hx => ?_⟩
    · show Fs.run (r.map (.append t)) ((FsOp.append t w).apply fs) t = _
      rw [h3]; simp
    · show Fs.run (r.map (.append t)) ((FsOp.append t w).apply fs) x = _
      rw [h4 x hx]; simp [FsOp.apply, hx]

theorem Fs.run_append (a c : List FsOp) (fs : Fs) : Fs.run (a ++ c) fs = Fs.run c (Fs.run a fs) := by
  simp [Fs.run, List.foldl_append]

/-- Operations on the temporary file only. -/
def FsOp.On (t : Path) : FsOp → Prop
  | .create p => p = t
  | .append p _ => p = t
  | .remove p => p = t
  | .rename _ _ => False

theorem Fs.run_other {t x : Path} (hx : x ≠ t) : ∀ (ops : List FsOp) (fs : Fs), (∀ o ∈ ops, o.On t) →
    Fs.run ops fs x = fs x
  | [], fs, _ => rfl
  | o :: r, fs, h => by
    show Fs.run r (o.apply fs) x = fs x
    rw [Fs.run_other hx r _ (fun o ho => h o (List.mem_cons_of_mem _ ho))]
    have := h o List.mem_cons_self
    cases o <;> simp [FsOp.On] at this <;> subst this <;> simp [FsOp.apply, hx]

/-- Crashing in the middle of operations on the temporary file. -/
theorem crashOps_on {t : Path} {ops : List FsOp} (h : ∀ o ∈ ops, o.On t) (k cut : Nat) : ∀ o ∈ crashOps ops k cut, o.On t := by
  intro o ho
  unfold crashOps at ho
  rcases List.mem_append.1 ho with ho | ho
  · exact h o (List.mem_of_mem_take ho)
  · split at ho
    · rename_i p c hk
      have : p = t := h _ (List.mem_of_getElem? hk)
      simp only [List.mem_singleton] at ho; subst ho; exact this
    · simp at ho

theorem FsOp.on_temp {t : Path} (ws : List Bytes) (o' : FsOp) (ho' : o'.On t) :
    ∀ o ∈ (.create t :: ws.map (.append t)) ++ [o'], o.On t := by
  intro o ho
  rcases List.mem_append.1 ho with ho | ho
  · rcases List.mem_cons.1 ho with rfl | ho
    · rfl
    · obtain ⟨w, _, rfl⟩ := List.mem_map.1 ho; rfl
  · simp only [List.mem_singleton] at ho; subst ho; exact ho'

/-- The final flush writes everything (its errors are ignored by the code). -/
def SyncIo.FlushOk (io : SyncIo) : Prop := io.tailFail = none

/-- What the system calls of `sync` do to the target: nothing before the last one. -/
theorem syncOps_shape (p : Path) (io : SyncIo) (bytes : Bytes) (hw : io.Writes bytes) (hf : io.FlushOk) :
    ((syncOps (some p) io).2 = .ok () ∧ ∃ ws : List Bytes, ws.flatten = bytes ∧
      (syncOps (some p) io).1 = (.create io.temp :: ws.map (.append io.temp)) ++ [.rename io.temp p]) ∨
    ((syncOps (some p) io).2 ≠ .ok () ∧ ∀ o ∈ (syncOps (some p) io).1, o.On io.temp) := by
  unfold syncOps
  cases io.createOk with
  | false => right; simp
  | true =>
    simp only [Bool.not_true, Bool.false_eq_true, if_false]
    cases io.headFail with
    | some n => right; exact ⟨by simp, FsOp.on_temp _ _ (by simp [FsOp.On])⟩
    | none =>
      simp only
      rw [hf]
      cases io.renameOk with
      | true =>
        left
        refine ⟨rfl, io.head ++ io.tail, by rw [List.flatten_append]; exact hw, rfl⟩
      | false => right; exact ⟨by simp, FsOp.on_temp _ _ (by simp [FsOp.On])⟩

/-- After a `sync` that succeeded (and whose final flush did not fail), the database read from the file has the same
contents as the one that was saved: same graph, and the same replies to every further history of calls. `C` is the
msgpack codec, for which reading back this image has to work; `Q` are the iteration orders of the hash maps while
saving; `io` what the file system did. -/
theorem C32_memory_roundtrip {d : MemDb} (hd : (memStore K b).Reach d) (C : ImageCodec) (Q : ImageOrder)
    (hC : C.dec (C.enc (d.mem.image Q)) = some (d.mem.image Q))
    (p : Path) (fs : Fs) (io : SyncIo) (hw : io.Writes (C.enc (d.mem.image Q))) (hf : io.FlushOk)
    (hok : (syncOps (some p) io).2 = .ok ()) :
    ∃ h, MemHandle.readMsgpack K C (Fs.run (syncOps (some p) io).1 fs) p = .ok h ∧ h.path = some p ∧
      (memStore K b).graph h.db = (memStore K b).graph d ∧
      ∀ hist, (memStore K b).replies hist h.db = (memStore K b).replies hist d := by
  obtain ⟨hp, hinv⟩ := memStore_reach hd
  rcases syncOps_shape p io _ hw hf with ⟨_, ws, hws, hops⟩ | ⟨hne, _⟩
  rotate_left
  · exact absurd hok hne
  have hfile : Fs.run (syncOps (some p) io).1 fs p = some (C.enc (d.mem.image Q)) := by
    rw [hops, Fs.run_append]
    show (Fs.run (ws.map (.append io.temp)) ((FsOp.create io.temp).apply fs)) |> fun g => (FsOp.rename io.temp p).apply g p = _
    have := (Fs.append_run io.temp ws ((FsOp.create io.temp).apply fs) [] (by simp [FsOp.apply])).1
    simp only [FsOp.apply, if_true] at this ⊢
    rw [this, hws]; simp
  refine ⟨⟨⟨(d.mem.image Q).load K, false⟩, some p⟩, ?_, rfl, ?_, ?_⟩
  · simp only [MemHandle.readMsgpack, hfile, hC]
  · exact (Mem.image_load hinv.wf.distinct Q).graph.symm
  · intro hist
    exact (MemDb.eqv_replies hist (d := d) (d' := ⟨(d.mem.image Q).load K, false⟩)
      (Mem.image_load hinv.wf.distinct Q) hp).1.symm

/-- If the process dies anywhere in `sync`, also in the middle of a write, the file is the previous one or the complete
new image; files other than the temporary one and the target are not touched. -/
theorem C32_memory_crash (bytes : Bytes) (p : Path) (fs : Fs) (io : SyncIo) (ht : io.temp ≠ p)
    (hw : io.Writes bytes) (hf : io.FlushOk) (k cut : Nat) :
    (Fs.run (crashOps (syncOps (some p) io).1 k cut) fs p = fs p ∨
      Fs.run (crashOps (syncOps (some p) io).1 k cut) fs p = some bytes) ∧
    ∀ x, x ≠ p → x ≠ io.temp → Fs.run (crashOps (syncOps (some p) io).1 k cut) fs x = fs x := by
  rcases syncOps_shape p io bytes hw hf with ⟨_, ws, hws, hops⟩ | ⟨_, hon⟩
  · rw [hops]
    have hon : ∀ o ∈ FsOp.create io.temp :: ws.map (FsOp.append io.temp), o.On io.temp := by
      intro o ho
      rcases List.mem_cons.1 ho with rfl | ho
      · rfl
      · obtain ⟨w, _, rfl⟩ := List.mem_map.1 ho; rfl
    generalize hpre : FsOp.create io.temp :: ws.map (FsOp.append io.temp) = pre at hon
    by_cases hk : k ≤ pre.length
    · -- the rename has not happened
      have : ∀ o ∈ crashOps (pre ++ [.rename io.temp p]) k cut, o.On io.temp := by
        intro o ho
        unfold crashOps at ho
        rw [List.take_append_of_le_length hk] at ho
        rcases List.mem_append.1 ho with ho | ho
        · exact hon o (List.mem_of_mem_take ho)
        · split at ho
          · rename_i q c hq
            have hq := List.mem_of_getElem? hq
            rcases List.mem_append.1 hq with hq | hq
            · have := hon _ hq
              simp only [List.mem_singleton] at ho; subst ho; exact this
            · simp at hq
          · simp at ho
      exact ⟨Or.inl (Fs.run_other (Ne.symm ht) _ _ this), fun x _ hx => Fs.run_other hx _ _ this⟩
    · -- everything has happened
      have hall : crashOps (pre ++ [.rename io.temp p]) k cut = pre ++ [.rename io.temp p] := by
        unfold crashOps
        rw [List.take_of_length_le (by simp; omega)]
        have : (pre ++ [FsOp.rename io.temp p])[k]? = none := by
          rw [List.getElem?_eq_none_iff]; simp; omega
        rw [this]; simp
      rw [hall, Fs.run_append]
      refine ⟨Or.inr ?_, fun x hx hx2 => ?_⟩
      · subst hpre
        have := (Fs.append_run io.temp ws ((FsOp.create io.temp).apply fs) [] (by simp [FsOp.apply])).1
        show (FsOp.rename io.temp p).apply (Fs.run (ws.map (.append io.temp)) ((FsOp.create io.temp).apply fs)) p = _
        simp only [FsOp.apply, if_true] at this ⊢
        rw [this, hws]; simp
      · show (FsOp.rename io.temp p).apply (Fs.run pre fs) x = fs x
        simp only [FsOp.apply, hx, hx2, if_false]
        exact Fs.run_other hx2 _ _ hon
  · have := crashOps_on hon k cut
    exact ⟨Or.inl (Fs.run_other (Ne.symm ht) _ _ this), fun x _ hx => Fs.run_other hx _ _ this⟩

/-- If `sync` reports an error, the target is as before and the temporary file is gone. -/
theorem C32_memory_error (p : Path) (fs : Fs) (io : SyncIo) (hnew : fs io.temp = none)
    (he : (syncOps (some p) io).2 ≠ .ok ()) :
    ∀ x, Fs.run (syncOps (some p) io).1 fs x = fs x := by
  have key : ∀ pre : List FsOp, (∀ o ∈ pre, o.On io.temp) → ∀ x, Fs.run (pre ++ [.remove io.temp]) fs x = fs x := by
    intro pre hon x
    rw [Fs.run_append]
    show (FsOp.remove io.temp).apply (Fs.run pre fs) x = fs x
    by_cases hx : x = io.temp
    · subst hx; simp [FsOp.apply, hnew]
    · simp only [FsOp.apply, hx, if_false]; exact Fs.run_other hx _ _ hon
  revert he
  unfold syncOps
  cases io.createOk with
  | false => intro _ x; rfl
  | true =>
    simp only [Bool.not_true, Bool.false_eq_true, if_false]
    cases io.headFail with
    | some n =>
      intro _
      exact key _ (by
        intro o ho
        rcases List.mem_cons.1 ho with rfl | ho
        · rfl
        · obtain ⟨w, _, rfl⟩ := List.mem_map.1 ho; rfl)
    | none =>
      simp only
      cases io.renameOk with
      | true => intro h; exact absurd rfl h
      | false =>
        intro _
        exact key _ (by
          intro o ho
          rcases List.mem_cons.1 ho with rfl | ho
          · rfl
          · obtain ⟨w, _, rfl⟩ := List.mem_map.1 ho; rfl)

/-- Without a path, `sync` succeeds and makes no system call. -/
theorem C32_memory_no_path (io : SyncIo) : syncOps MemHandle.newDb.path io = ([], .ok ()) := rfl

/-- `create_msgpack_db` starts empty whatever the file holds; `read_msgpack_db` of a missing or unreadable file fails. -/
theorem C32_memory_open (C : ImageCodec) (fs : Fs) (p : Path) :
    (MemHandle.createMsgpack p).db = MemDb.new ∧ (MemHandle.createMsgpack p).path = some p ∧
    ((fs p).bind C.dec = none → ∃ f, MemHandle.readMsgpack K C fs p = .error f) := by
  refine ⟨rfl, rfl, fun h => ?_⟩
  unfold MemHandle.readMsgpack
  cases hb : fs p with
  | none => exact ⟨_, rfl⟩
  | some c => rw [hb] at h; simp only [Option.bind_some] at h; simp only [h]; exact ⟨_, rfl⟩

/-! ### Closing and reopening again and again -/

/-- Part of the life of a persistent database: a call, or `sync`, end of the process and `read_msgpack_db` by a new one. -/
inductive LifeEv where
  | call (O : HashOrder) (op : Op)
  | reopen (Q : ImageOrder) (fs : Fs) (io : SyncIo)

/-- Replies to the calls; `none` if a reopening fails. -/
def life (K : HashEq) (b : Build) (C : ImageCodec) (p : Path) : List LifeEv → MemDb → Option (List (Res Reply))
  | [], _ => some []
  | .call O op :: r, d => (life K b C p r (MemDb.step K b O op d).1).map ((MemDb.step K b O op d).2 :: ·)
  | .reopen _ fs io :: r, d =>
    if d.poisoned then none
    else match (syncOps (some p) io).2 with
    | .error _ => none
    | .ok _ => match MemHandle.readMsgpack K C (Fs.run (syncOps (some p) io).1 fs) p with
      | .error _ => none
      | .ok h => life K b C p r h.db

/-- Every `sync` writes its image, without I/O errors, and the codec can read it back. -/
def LifeOk (K : HashEq) (b : Build) (C : ImageCodec) (p : Path) : List LifeEv → MemDb → Prop
  | [], _ => True
  | .call O op :: r, d => LifeOk K b C p r (MemDb.step K b O op d).1
  | .reopen Q _ io :: r, d => d.poisoned = false ∧ C.dec (C.enc (d.mem.image Q)) = some (d.mem.image Q) ∧
      io.temp ≠ p ∧ io.Writes (C.enc (d.mem.image Q)) ∧ io.FlushOk ∧
      (syncOps (some p) io).2 = .ok () ∧ LifeOk K b C p r ⟨(d.mem.image Q).load K, false⟩

/-- The calls of a life. -/
def lifeCalls : List LifeEv → List (HashOrder × Op)
  | [] => []
  | .call O op :: r => (O, op) :: lifeCalls r
  | .reopen .. :: r => lifeCalls r

/-- A database that is saved and reopened any number of times answers like one that is never closed. -/
theorem C32_memory_life (C : ImageCodec) (p : Path) (evs : List LifeEv)
    (h : LifeOk K b C p evs MemDb.new) :
    life K b C p evs MemDb.new = some ((memStore K b).replies (lifeCalls evs) MemDb.new) := by
  suffices ∀ (evs : List LifeEv) (d d' : MemDb), Mem.Eqv K d.mem d'.mem → d.poisoned = d'.poisoned →
      LifeOk K b C p evs d' → life K b C p evs d' = some ((memStore K b).replies (lifeCalls evs) d) from
    this evs MemDb.new MemDb.new ⟨_, rfl, fun n => by rw [show MemDb.new.mem.propertyValues.get n = none from rfl]; trivial⟩ rfl h
  intro evs
  induction evs with
  | nil => intro d d' _ _ _; rfl
  | cons e r ih =>
    intro d d' he hp hl
    cases e with
    | call O op =>
      have := MemDb.eqv_replies (b := b) [(O, op)] he hp
      have h1 : (MemDb.step K b O op d).2 = (MemDb.step K b O op d').2 := by
        have := this.1; simp only [Store.replies, List.cons.injEq] at this; exact this.1
      simp only [life, lifeCalls]
      rw [ih (MemDb.step K b O op d).1 (MemDb.step K b O op d').1 this.2.1 this.2.2 hl, ← h1]
      rfl
    | reopen Q fs io =>
      obtain ⟨hp', hC, ht, hw, hf, hok, hl⟩ := hl
      have hd' : AllDistinct K d'.mem := by
        intro n c hc
        obtain ⟨pv, h1, h2⟩ := he
        have := h2 n
        rw [h1] at hc
        simp only at hc
        rw [hc] at this
        cases hx : d.mem.propertyValues.get n with
        | none => rw [hx] at this; exact this.elim
        | some c' => rw [hx] at this; exact this.2.1
      have hfile : Fs.run (syncOps (some p) io).1 fs p = some (C.enc (d'.mem.image Q)) := by
        rcases syncOps_shape p io _ hw hf with ⟨_, ws, hws, hops⟩ | ⟨hne, _⟩
        rotate_left
        · exact absurd hok hne
        rw [hops, Fs.run_append]
        have := (Fs.append_run io.temp ws ((FsOp.create io.temp).apply fs) [] (by simp [FsOp.apply])).1
        show (FsOp.rename io.temp p).apply (Fs.run (ws.map (.append io.temp)) ((FsOp.create io.temp).apply fs)) p = _
        simp only [FsOp.apply, if_true] at this ⊢
        rw [this, hws]; simp
      have himg := Mem.image_load hd' Q
      have htr : Mem.Eqv K d.mem ((d'.mem.image Q).load K) := by
        obtain ⟨pv, h1, h2⟩ := he
        obtain ⟨pv', h3, h4⟩ := himg
        refine ⟨pv', by rw [h3, h1], fun n => ?_⟩
        have a1 := h2 n
        have a2 := h4 n
        rw [h1] at a2
        simp only at a2
        generalize d.mem.propertyValues.get n = x at a1 ⊢
        generalize pv.get n = y at a1 a2
        generalize pv'.get n = z at a2 ⊢
        cases x <;> cases y <;> cases z <;> first | exact a1.elim | exact a2.elim | trivial | skip
        exact ⟨a1.1, a2.2.1, fun v => (a1.2.2 v).trans (a2.2.2 v)⟩
      simp only [life, lifeCalls, hp', Bool.false_eq_true, if_false, hok, MemHandle.readMsgpack, hfile, hC]
      exact ih d _ htr (by rw [hp, hp']) hl

/-! ### What is not true -/

/-- If the final flush fails (for instance because the disk is full), `BufWriter`'s `drop` swallows the error: `sync`
reports success, the previous image is gone and the new one cannot be read. `dec [] = none`: an empty file is not a
msgpack image. -/
theorem C32_memory_refuted (C : ImageCodec) (hC : C.dec [] = none) (d : MemDb) (Q : ImageOrder) (p t : Path)
    (fs : Fs) :
    ∃ io : SyncIo, io.temp = t ∧ io.Writes (C.enc (d.mem.image Q)) ∧ (syncOps (some p) io).2 = .ok () ∧
      Fs.run (syncOps (some p) io).1 fs p = some [] ∧
      ∃ f, MemHandle.readMsgpack K C (Fs.run (syncOps (some p) io).1 fs) p = .error f := by
  refine ⟨⟨t, true, [], [C.enc (d.mem.image Q)], none, some 0, true⟩, rfl, by simp [SyncIo.Writes], rfl, ?_, ?_⟩
  · simp [syncOps, Fs.run, FsOp.apply]
  · have : Fs.run (syncOps (some p) ⟨t, true, [], [C.enc (d.mem.image Q)], none, some 0, true⟩).1 fs p = some [] := by
      simp [syncOps, Fs.run, FsOp.apply]
    simp only [MemHandle.readMsgpack, this, hC]
    exact ⟨_, rfl⟩

namespace W
/-- I/O without errors, writing the image in two pieces. -/
def io (b : Bytes) : SyncIo := ⟨[1], true, [b.take 1], [b.drop 1], none, none, true⟩

/-- A codec that knows the image of the example database only. -/
def imageCodec : ImageCodec :=
  ⟨fun i => if i = (demo .debug).mem.image .sorted then [7, 7] else [9],
   fun b => if b = [7, 7] then some ((demo .debug).mem.image .sorted) else none⟩
end W

/-- The hypotheses of the round trip hold for the example database. -/
example : (MS .debug).Reach (W.demo .debug) ∧
    W.imageCodec.dec (W.imageCodec.enc ((W.demo .debug).mem.image .sorted)) = some ((W.demo .debug).mem.image .sorted) ∧
    (W.io [7, 7]).Writes (W.imageCodec.enc ((W.demo .debug).mem.image .sorted)) ∧
    (W.io [7, 7]).FlushOk ∧ (syncOps (some [2]) (W.io [7, 7])).2 = .ok () := by
  refine ⟨W.demo_reach .debug, ?_, ?_, rfl, rfl⟩
  · simp [W.imageCodec]
  · simp [W.imageCodec, W.io, SyncIo.Writes]

/-- A crash in the middle of a write leaves the old file. -/
example : Fs.run (crashOps (syncOps (some [2]) (W.io [7, 7])).1 1 0) (fun x => if x = [2] then some [5] else none) [2] =
    some [5] ∧
    Fs.run (syncOps (some [2]) (W.io [7, 7])).1 (fun x => if x = [2] then some [5] else none) [2] = some [7, 7] := by
  decide +kernel

/-- A life with a call before and after a reopening, without I/O errors. -/
example : LifeOk HashEq.byHash .debug
    ⟨fun _ => [3], fun _ => some ((MemDb.step HashEq.byHash .debug .sorted (.createVertex ⟨W.u 1, W.t⟩) MemDb.new).1.mem.image .sorted)⟩ [2]
    [.call .sorted (.createVertex ⟨W.u 1, W.t⟩), .reopen .sorted (fun _ => none) (W.io [3]),
     .call .sorted (.get .allVertex)] MemDb.new := by
  refine ⟨by decide +kernel, rfl, by decide, rfl, rfl, rfl, trivial⟩

end IndraDB
