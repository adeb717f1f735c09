import Verif.Spec.ServerBytes
import Verif.Props.ServerMain
import Verif.Props.Msgpack
/-
C88: the life of a server with a persistent in-memory datastore, whatever happens to its file.
-/
namespace IndraDB
open Mem
variable {K : HashEq} {b : Build} {I : Identifier → Prop} {V : Json → Prop} {F : Finder}

theorem loadMap_mem {α : Type} (l : List (Identifier × α)) : ∀ n c, (loadMap l).get n = some c → (n, c) ∈ l := by
  have key : ∀ (l : List (Identifier × α)) (m : SMap Identifier α) n c,
      (l.foldl (fun m e => m.insert e.1 e.2) m).get n = some c → (n, c) ∈ l ∨ m.get n = some c := by
    intro l
    induction l with
    | nil => intro m n c h; exact Or.inr h
    | cons a r ih =>
      intro m n c h
      rcases ih _ n c h with h | h
      · exact Or.inl (List.mem_cons_of_mem _ h)
      · rw [SMap.get_insert] at h
        split at h
        · next e => cases h; subst e; exact Or.inl List.mem_cons_self
        · exact Or.inr h
  intro n c h
  rcases key l SMap.empty n c h with h | h
  · exact h
  · simp at h

/-- Reading back what was saved. -/
theorem MemDb.Held.load {d : MemDb} (h : d.Held I V) (Q : ImageOrder) : MemDb.Held I V ⟨(d.mem.image Q).load F, false⟩ where
  rev := by
    have h2 : ((d.mem.image Q).load F).edges = d.mem.edges := loadSet_perm _ (List.Perm.refl _)
    have h3 : ((d.mem.image Q).load F).reversedEdges = d.mem.reversedEdges := loadSet_perm _ (List.Perm.refl _)
    intro e
    show ((d.mem.image Q).load F).reversedEdges.contains e = ((d.mem.image Q).load F).edges.contains e.reversed
    rw [h2, h3]; exact h.rev e
  graph := by
    show ((d.mem.image Q).load F).graph.Holds I V
    rw [image_load_graph]; exact h.graph
  idx := by
    intro n c hc
    have hm := loadMap_mem _ n c hc
    obtain ⟨e, he, h2⟩ := List.mem_map.1 hm
    cases h2
    obtain ⟨h3, h4⟩ := (image_holds h.rev h.graph h.idx Q).propertyValues e he
    refine ⟨h3, ?_⟩
    refine Container.Held.foldl ?_ _ (by intro p hp; cases hp)
    intro s hs c hc
    obtain ⟨h5, h6⟩ := h4 s hs
    exact hc.upsert h5 (fun _ _ => SetHeld.addAll _ SetHeld.empty h6)

variable {utf8 : Bytes → Bool} {n levels : Nat}

/-- What the file holds. -/
def FileKept (K : HashEq) (b : Build) (I : Identifier → Prop) (V : Json → Prop) (C : ImageCodec) (p : Path)
    (s : Option (List (HashOrder × Op))) (fs : Fs) : Prop :=
  (fs p = none ∧ s = some []) ∨
  (∃ bytes i c, fs p = some bytes ∧ C.dec bytes = some i ∧ s = some c ∧ Holds K b c ⟨i.load K, false⟩ ∧
    MemDb.Held I V ⟨i.load K, false⟩) ∨
  ∃ bytes, fs p = some bytes ∧ C.dec bytes = none ∧ s = none

theorem FileKept.of_eq {C : ImageCodec} {p : Path} {s : Option (List (HashOrder × Op))} {fs fs' : Fs} (h : FileKept K b I V C p s fs)
    (e : fs' p = fs p) : FileKept K b I V C p s fs' := by
  unfold FileKept at *; rw [e]; exact h

/-- World and histories agree. -/
def Follows (K : HashEq) (b : Build) (I : Identifier → Prop) (V : Json → Prop) (C : ImageCodec) (p : Path) (w : World) (D : Kept) : Prop :=
  FileKept K b I V C p D.saved w.fs ∧
    match w.proc, D.running with
    | none, none => True
    | some h, some c => h.path = some p ∧ Holds K b c h.db ∧ (h.db.poisoned = false → h.db.Held I V)
    | _, _ => False

section
variable (hv : utf8 [86, 101, 114, 116, 101, 120] = true) (he : utf8 [69, 100, 103, 101] = true)
  (hfit : ∀ v, V v → v.Fits utf8 n) (hc : n + 8 ≤ levels)
include hv he hfit hc

theorem FileKept.of_part {p : Path} {c : List (HashOrder × Op)} {d : MemDb} {fs : Fs} {Q : ImageOrder}
    (h : Holds K b c d) (hd : d.Held (·.Typed utf8) V) (hp : d.poisoned = false)
    (hl : ((msgpack utf8 levels).enc (d.mem.image Q)).length < 4294967296) {part : Bytes}
    (hpart : part <+: (msgpack utf8 levels).enc (d.mem.image Q)) (e : fs p = some part) :
    (part = (msgpack utf8 levels).enc (d.mem.image Q) ∧ FileKept K b (·.Typed utf8) V (msgpack utf8 levels) p (some c) fs) ∨
    (part ≠ (msgpack utf8 levels).enc (d.mem.image Q) ∧ FileKept K b (·.Typed utf8) V (msgpack utf8 levels) p none fs) := by
  have hi : (d.mem.image Q).Holds (·.Typed utf8) (Json.Fits utf8 n) := (image_holds hd.rev hd.graph hd.idx Q).mono (fun _ h => h) hfit
  by_cases hpe : part = (msgpack utf8 levels).enc (d.mem.image Q)
  · subst hpe
    exact Or.inl ⟨rfl, Or.inr (Or.inl ⟨_, _, c, e, msgpack_dec hv he hi hc hl, rfl,
      ⟨h.1.trans (Mem.image_load h.1.distinct Q), h.2.trans hp⟩, hd.load Q⟩)⟩
  · exact Or.inr ⟨hpe, Or.inr (Or.inr ⟨_, e, msgpack_cut hv he hi hc hl hpart hpe, rfl⟩)⟩

theorem follows_step {p : Path} {w : World} {D : Kept} (h : Follows K b (·.Typed utf8) V (msgpack utf8 levels) p w D) (e : ServerEv)
    (hs : World.Clean (·.Typed utf8) V K b (msgpack utf8 levels) p [e] w) :
    ∃ D', Kept.Step (memAnswer K b) D e (w.step K b (msgpack utf8 levels) (some p) e).2 D' ∧
      Follows K b (·.Typed utf8) V (msgpack utf8 levels) p (w.step K b (msgpack utf8 levels) (some p) e).1 D' := by
  obtain ⟨fs, proc⟩ := w
  obtain ⟨s, running⟩ := D
  obtain ⟨hf, hr⟩ := h
  replace hs := hs.1
  cases e with
  | start =>
    cases proc with
    | some h => exact hs.elim
    | none =>
      cases running with
      | some c => exact hr.elim
      | none =>
        simp only [World.step, startMemory]
        rcases hf with ⟨h1, h2⟩ | ⟨bytes, i, c, h1, h2, h3, h4, h5⟩ | ⟨bytes, h1, h2, h3⟩
        · simp only at h1 h2
          subst h2
          simp only [h1, Option.isSome_none, Bool.false_eq_true, if_false]
          exact ⟨_, .start _, Or.inl ⟨h1, rfl⟩, rfl, holds_new, fun _ => MemDb.held_new⟩
        · simp only at h1 h3
          subst h3
          simp only [h1, Option.isSome_some, if_true, MemHandle.readMsgpack, h2]
          exact ⟨_, .start _, Or.inr (Or.inl ⟨bytes, i, c, h1, h2, rfl, h4, h5⟩), rfl, h4, fun _ => h5⟩
        · simp only at h1 h3
          subst h3
          simp only [h1, Option.isSome_some, if_true, MemHandle.readMsgpack, h2]
          exact ⟨_, .refused, Or.inr (Or.inr ⟨bytes, h1, h2, rfl⟩), trivial⟩
  | call O op Q io =>
    cases proc with
    | none => exact hs.elim
    | some h =>
      cases running with
      | none => exact hr.elim
      | some c =>
        obtain ⟨hpath, hh, hg⟩ := hr
        obtain ⟨hall, hs⟩ := hs
        by_cases hop : op = .sync
        · subst hop
          obtain ⟨ht, hw, hl⟩ := hs rfl
          simp only [World.step, if_true, MemHandle.sync]
          cases hp : h.db.poisoned with
          | true =>
            refine ⟨⟨s, some c⟩, ?_⟩
            simp only [if_true]
            exact ⟨.notSaved _ _ _ _ _ _ (Or.inr ((poisoned_iff c).1 (hh.2.trans hp))), hf, hpath, hh, hg⟩
          | false =>
            have hnp : ¬ Panicked (memAnswer K b) c := fun hx => by
              have := (poisoned_iff c).2 hx
              rw [hh.2, hp] at this; cases this
            simp only [Bool.false_eq_true, if_false, hpath]
            rcases syncOps_result p io with ⟨hfail, f, hres⟩ | ⟨hfail, hres⟩
            · refine ⟨⟨s, some c⟩, ?_⟩
              simp only [hres, Except.map]
              refine ⟨.notSaved _ _ _ _ _ _ (Or.inl hfail), hf.of_eq ?_, hpath, hh, hg⟩
              rcases syncOps_any p io _ hw with ⟨h1, _⟩ | ⟨_, hon⟩
              · rw [hres] at h1; cases h1
              · exact Fs.run_other (Ne.symm ht) _ _ hon
            · simp only [hres, Except.map]
              by_cases htf : io.tailFail = none
              · refine ⟨⟨some c, some c⟩, .saved _ _ _ _ _ hfail hnp, ?_, hpath, hh, hg⟩
                rcases FileKept.of_part hv he hfit hc hh (hg hp) hp hl List.prefix_rfl (syncOps_done hw htf fs hres) with ⟨_, h1⟩ | ⟨h1, _⟩
                · exact h1
                · exact absurd rfl h1
              · rcases syncOps_any p io _ hw with ⟨_, ws, hws, hops⟩ | ⟨hne, _⟩
                · have hfile : Fs.run (syncOps (some p) io).1 fs p = some ws.flatten := by
                    rw [hops, Fs.run_append]
                    have := (Fs.append_run io.temp ws ((FsOp.create io.temp).apply fs) [] (by simp [FsOp.apply])).1
                    show (FsOp.rename io.temp p).apply (Fs.run (ws.map (.append io.temp)) ((FsOp.create io.temp).apply fs)) p = _
                    simp only [FsOp.apply, if_true] at this ⊢
                    rw [this]; simp
                  rcases FileKept.of_part hv he hfit hc hh (hg hp) hp hl hws hfile with ⟨_, h1⟩ | ⟨_, h1⟩
                  · exact ⟨⟨some c, some c⟩, .saved _ _ _ _ _ hfail hnp, h1, hpath, hh, hg⟩
                  · exact ⟨⟨none, some c⟩, .torn _ _ _ _ _ hfail hnp htf, h1, hpath, hh, hg⟩
                · exact absurd hres hne
        · refine ⟨⟨s, some (c ++ [(O, op)])⟩, ?_⟩
          simp only [World.step, hop, if_false]
          obtain ⟨h1, h2⟩ := hh.step O op
          rw [← h2]
          refine ⟨.call _ _ _ _ _ _ hop, hf, hpath, h1, fun hp' => ?_⟩
          cases hp : h.db.poisoned with
          | true => 
            have : MemDb.step K b O op h.db = (h.db, .error .panic) := MemDb.step_poisoned_any _ _ _ hp
            simp only [this] at hp'
            rw [hp] at hp'; cases hp'
          | false => exact ((hg hp).step hp K.finder O hall hp').1
  | kill =>
    cases proc with
    | none => exact hs.elim
    | some h =>
      cases running with
      | none => exact hr.elim
      | some c => exact ⟨⟨s, none⟩, .kill _ _, hf, trivial⟩
  | killInSync Q io k cut =>
    cases proc with
    | none => exact hs.elim
    | some h =>
      cases running with
      | none => exact hr.elim
      | some c =>
        obtain ⟨hpath, hh, hg⟩ := hr
        obtain ⟨hp, ht, hw, hl⟩ := hs
        simp only [World.step, hp, Bool.false_eq_true, if_false, hpath]
        by_cases htf : io.tailFail = none
        · rcases (C32_memory_crash _ p fs io ht hw htf k cut).1 with h1 | h1
          · exact ⟨⟨s, none⟩, .killedOld _ _ _ _ _ _, hf.of_eq h1, trivial⟩
          · rcases FileKept.of_part hv he hfit hc hh (hg hp) hp hl List.prefix_rfl h1 with ⟨_, h2⟩ | ⟨h2, _⟩
            · exact ⟨⟨some c, none⟩, .killedNew _ _ _ _ _ _, h2, trivial⟩
            · exact absurd rfl h2
        · rcases sync_target _ p fs io ht hw k cut with h1 | ⟨part, hpart, h1⟩
          · exact ⟨⟨s, none⟩, .killedOld _ _ _ _ _ _, hf.of_eq h1, trivial⟩
          · rcases FileKept.of_part hv he hfit hc hh (hg hp) hp hl hpart h1 with ⟨_, h2⟩ | ⟨_, h2⟩
            · exact ⟨⟨some c, none⟩, .killedNew _ _ _ _ _ _, h2, trivial⟩
            · exact ⟨⟨none, none⟩, .killedTorn _ _ _ _ _ _ htf, h2, trivial⟩

/-- **C88.** A server with a path, started and killed any number of times at any moment, with I/O errors of all kinds, also
those nobody notices: it answers exactly as a database on which the calls of its history were made; that history starts
with one that an earlier `sync` has saved or was about to save; and if the last image is incomplete, the server refuses to
start instead of serving something else. The bytes are those of `rmp_serde`; values are nested at most `levels - 8` deep
(with its limit of 1024: 1016; gRPC requests carry less than 128). `fs` is any file system without a file at the path. -/
theorem C88_memory (p : Path) (fs : Fs) (h : fs p = none) (evs : List ServerEv)
    (hs : World.Clean (·.Typed utf8) V K b (msgpack utf8 levels) p evs ⟨fs, none⟩) :
    ∃ D, Kept.Run (memAnswer K b) ⟨some [], none⟩ evs (World.run K b (msgpack utf8 levels) (some p) evs ⟨fs, none⟩) D := by
  suffices ∀ (evs : List ServerEv) (w : World) (D : Kept), Follows K b (·.Typed utf8) V (msgpack utf8 levels) p w D →
      World.Clean (·.Typed utf8) V K b (msgpack utf8 levels) p evs w →
      ∃ D', Kept.Run (memAnswer K b) D evs (World.run K b (msgpack utf8 levels) (some p) evs w) D' from
    this evs _ _ ⟨Or.inl ⟨h, rfl⟩, trivial⟩ hs
  intro evs
  induction evs with
  | nil => intro w D _ _; exact ⟨D, .nil D⟩
  | cons e r ih =>
    intro w D ht hs
    obtain ⟨D1, h1, h2⟩ := follows_step hv he hfit hc ht e ⟨hs.1, trivial⟩
    obtain ⟨D2, h3⟩ := ih _ _ h2 hs.2
    exact ⟨D2, .cons h1 h3⟩

end

namespace W
/-- The vertex of the example, saved by MessagePack. -/
def byteIo : SyncIo := io (msgpack ascii 1024 |>.enc img1)

/-- Start, a vertex, a `sync` that is killed in the middle of a write, start, the vertex again, `sync`, a second vertex,
kill, start, query, `sync` whose final flush fails, kill, and a start that is refused. -/
def byteLife : List ServerEv :=
  [.start, .call .sorted (.createVertex ⟨u 1, t⟩) .sorted (io []), .killInSync .sorted byteIo 2 5,
   .start, .call .sorted (.createVertex ⟨u 1, t⟩) .sorted (io []), .call .sorted .sync .sorted byteIo,
   .call .sorted (.createVertex ⟨u 2, t⟩) .sorted (io []), .kill, .start, .call .sorted (.get .allVertex) .sorted (io []),
   .call .sorted .sync .sorted { byteIo with tailFail := some 0 }, .kill, .start]
end W

/-- The hypotheses are met, and what is seen: the first vertex was lost and is created again, the second one is gone, and
after the unnoticed I/O error the server does not start. -/
example : World.Clean (·.Typed W.ascii) W.Plain HashEq.byHash .debug (msgpack W.ascii 1024) [2] W.byteLife ⟨fun _ => none, none⟩ ∧
    (World.run HashEq.byHash .debug (msgpack W.ascii 1024) (some [2]) W.byteLife ⟨fun _ => none, none⟩).map
      (fun | .reply r => some r | .refused => some (.error .panic) | _ => none) =
    [none, some (.ok (.bool true)), none, none, some (.ok (.bool true)), some (.ok .unit), some (.ok (.bool true)), none, none,
     some (.ok (.outputs [.vertices [⟨W.u 1, W.t⟩]])), some (.ok .unit), none, some (.error .panic)] := by
  have h1 : W.t.Typed W.ascii := show W.ascii _ = true by decide
  refine ⟨⟨trivial, ⟨h1, fun h => (nomatch h)⟩, ⟨by decide +kernel, by decide +kernel, by unfold SyncIo.Writes; decide +kernel, by decide +kernel⟩, trivial,
    ⟨h1, fun h => (nomatch h)⟩, ⟨trivial, fun _ => ⟨by decide +kernel, by unfold SyncIo.Writes; decide +kernel, by decide +kernel⟩⟩, ⟨h1, fun h => (nomatch h)⟩,
    trivial, trivial, ⟨trivial, fun h => (nomatch h)⟩,
    ⟨trivial, fun _ => ⟨by decide +kernel, by unfold SyncIo.Writes; decide +kernel, by decide +kernel⟩⟩, trivial, trivial, trivial⟩,
    by decide +kernel⟩

end IndraDB
