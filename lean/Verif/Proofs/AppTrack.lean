import Verif.Proofs.AppNames
/-
What a call does that a task makes from some moment on.
-/
set_option linter.unusedSimpArgs false
namespace IndraDB
namespace Rocks
open Prog LockConc
variable {X : Cfg} {io : Bool}

/-- What has to be shown for the rest `p` of a call of one task, while the database satisfies `G`. -/
structure Track (X : Cfg) (io : Bool) (G : Rocks → Prop) (P : Access → Prog Answer → Prop) : Prop where
  enter : ∀ O a, P a (accessProg X O a)
  fault : io = true → ∀ a, P a (.done (.error ioFault))
  get : ∀ s a cf b n, G s → P a (.get cf b n) → P a (n ((s.kv cf).get b))
  scan : ∀ s a cf lo n, G s → P a (.scan cf lo n) → P a (n (((s.kv cf).rangeFrom lo).map .ok))
  scanFails : io = true → ∀ s a cf lo n i, G s → P a (.scan cf lo n) →
    P a (n ((((s.kv cf).rangeFrom lo).take i).map .ok ++ [.error ioFault]))
  write : ∀ a b n, P a (.write b n) → P a (n ())
  readLock : ∀ s a held n, G s → P a (.readLock held n) → P a (n s.indexed)
  writeLock : ∀ s a n, G s → P a (.writeLock n) → P a (n s.indexed)
  setIndexed : ∀ s a ix n, G s → P a (.setIndexed ix n) → P a (n ())

variable {G : Rocks → Prop} {P : Access → Prog Answer → Prop}

theorem Track.step (R : Track X io G P) {S S' : App} {e : List AppEv} (hs : App.Step X io S e S') (hG : G S.db) {c : Nat}
    (H : ∀ a p k, S.tasks c = .inside a p k → P a p) :
    (∀ a p k, S'.tasks c = .inside a p k → P a p) ∧ ∀ a r, AppEv.leave c a r ∈ e → P a (.done r) := by
  have silent : ∀ {d : Nat} {a : Access} {p p' : Prog Answer} {k : Except Error Answer → Task}, S.tasks d = .inside a p k →
      (P a p → P a p') → ∀ b q j, setAt S.tasks d (.inside a p' k) c = .inside b q j → P b q := by
    intro d a p p' k hd hp b q j hq
    rcases setAt_eq hq with ⟨rfl, h⟩ | ⟨_, h⟩
    · cases h; exact hp (H _ _ _ hd)
    · exact H _ _ _ h
  have fresh : ∀ {d : Nat} {a : Access} {p : Prog Answer} {k : Except Error Answer → Task}, P a p →
      ∀ b q j, setAt S.tasks d (.inside a p k) c = .inside b q j → P b q := by
    intro d a p k hp b q j hq
    rcases setAt_eq hq with ⟨rfl, h⟩ | ⟨_, h⟩
    · cases h; exact hp
    · exact H _ _ _ h
  have quiet : ∀ {d : Nat} {t : TaskAt}, (∀ a p k, t ≠ .inside a p k) → ∀ b q j, setAt S.tasks d t c = .inside b q j → P b q := by
    intro d t ht b q j hq
    rcases setAt_eq hq with ⟨rfl, h⟩ | ⟨_, h⟩
    · exact absurd h (ht _ _ _)
    · exact H _ _ _ h
  have none : ∀ a r, AppEv.leave c a r ∈ ([] : List AppEv) → P a (.done r) := fun _ _ h => nomatch h
  cases hs with
  | start d t _ => exact ⟨quiet (fun _ _ _ h => nomatch h), fun _ _ h => by simp at h⟩
  | stop d t _ _ => exact ⟨quiet (fun _ _ _ h => nomatch h), fun _ _ h => by simp at h⟩
  | enter d O a k _ => exact ⟨fresh (R.enter O a), fun _ _ h => by simp at h⟩
  | flushFails d a k hi _ _ => exact ⟨fresh (R.fault hi a), fun _ _ h => by simp at h⟩
  | get d a k cf b n hd => exact ⟨silent hd (R.get _ _ _ _ _ hG), none⟩
  | getFails d a k cf b n hi hd => exact ⟨fresh (R.fault hi a), none⟩
  | scan d a k cf lo n hd => exact ⟨silent hd (R.scan _ _ _ _ _ hG), none⟩
  | scanFails d i a k cf lo n hi hd => exact ⟨silent hd (R.scanFails hi _ _ _ _ _ i hG), none⟩
  | write d a k b n hd => exact ⟨silent hd (R.write _ _ _), none⟩
  | writeFails d a k b n hi hd => exact ⟨fresh (R.fault hi a), none⟩
  | readLock d a k held n hd _ => exact ⟨silent hd (R.readLock _ _ _ _ hG), none⟩
  | writeLock d a k n hd _ _ => exact ⟨silent hd (R.writeLock _ _ _ hG), none⟩
  | setIndexed d a k ix n hd => exact ⟨silent hd (R.setIndexed _ _ _ _ hG), none⟩
  | unlock d a k r hd _ => exact ⟨H, none⟩
  | unlockRead d a k r hd _ => exact ⟨H, none⟩
  | leave d a k r hd _ _ =>
    refine ⟨quiet (after_outside k r), fun b q h => ?_⟩
    simp only [List.mem_singleton, AppEv.leave.injEq] at h
    obtain ⟨rfl, rfl, rfl⟩ := h
    exact H _ _ _ hd

theorem Track.from (R : Track X io G P) {A S : App} {h : List AppEv} (hf : App.From X io A h S)
    (hG : ∀ h' S', App.From X io A h' S' → G S'.db) {c : Nat} (hc : A.Outside c) :
    (∀ a p k, S.tasks c = .inside a p k → P a p) ∧ ∀ a r, AppEv.leave c a r ∈ h → P a (.done r) := by
  induction hf with
  | nil => exact ⟨fun a p k h => absurd h (hc a p k), fun _ _ h => nomatch h⟩
  | snoc hf hs ih =>
    obtain ⟨h1, h2⟩ := R.step hs (hG _ _ hf) ih.1
    refine ⟨h1, fun a r hm => ?_⟩
    rcases List.mem_append.1 hm with hm | hm
    · exact ih.2 a r hm
    · exact h2 a r hm

/-- Errors: each call of the task shows only what `Ps` permits. -/
theorem Track.shows {V : Json → Prop} {Ps : Access → Perms X} (hp : ∀ op, Permits (Ps (.lib op)) op)
    (hd : io = true → ∀ a, (Ps a).err .datastore) (hr : ∀ a, (Ps a).Reads V) :
    Track X io (fun s => Sound X V s.kv ∧ ∀ a, (Ps a).names s.indexed) (fun a p => p.Calm (Ps a) (fun x => Shows (Ps a) (.ok x))) where
  enter O a := calm_access O a (fun op e => e ▸ hp op)
  fault hi a := ⟨(fun f e => by cases e; exact ⟨_, rfl, hd hi a⟩), fun a h => (nomatch h)⟩
  get s a cf b n hs h := h _ (fun v hv => hs.1.entry (hr a) hv)
  scan s a cf lo n hs h := h _ (hs.1.all_items (hr a) _ _)
  scanFails hi s a cf lo n i hs h := h _ (hs.1.items (hr a) _ _ _ _ (.inr ⟨rfl, hd hi a⟩))
  write a b n h := h
  readLock s a held n hs h := h _ (hs.2 a)
  writeLock s a n hs h := h _ (hs.2 a)
  setIndexed s a ix n _ h := h.2

/-- Lookups of known names do not report that they are not indexed. -/
theorem Track.finds (ix0 : SSet Identifier) :
    Track X io (fun s => Sub ix0 s.indexed) (fun a p => (∀ m ∈ a.lookups, ix0.contains m = true) →
      p.AllIf (Sub ix0) (fun _ => True) (fun x => ¬ Res.NotIndexed (.ok x))) where
  enter O a := fun ha => App.finds_access O a (fun ix n h => h.trans (.add ix n)) (fun m hm ix hix => hix m (ha m hm))
  fault _ a := fun _ => trivial
  get s a cf b n hs h := fun ha => h ha _
  scan s a cf lo n hs h := fun ha => h ha _
  scanFails hi s a cf lo n i hs h := fun ha => h ha _
  write a b n h := fun ha => (h ha).2
  readLock s a held n hs h := fun ha => h ha _ hs
  writeLock s a n hs h := fun ha => h ha _ hs
  setIndexed s a ix n hs h := fun ha => (h ha).2

theorem Calm.shows {P : Perms X} {r : Res Answer} (h : (Prog.done r).Calm P (fun x => Shows P (.ok x))) : Shows P r := by
  cases r with
  | ok x => exact h.2 x rfl
  | error f =>
    intro g hg
    rw [faultsOf, List.mem_singleton] at hg
    subst hg
    exact h.1 _ rfl

/-! ### Names that are not indexed -/

theorem _root_.IndraDB.Prog.AllIf.mono {α : Type} {I : SSet Identifier → Prop} {B : Batch → Prop} {Q Q' : α → Prop} {p : Prog α}
    (h : p.AllIf I B Q) (hQ : ∀ a, Q a → Q' a) : p.AllIf I B Q' := by
  induction p with
  | done r =>
    cases r with
    | ok a => exact hQ a h
    | error e => trivial
  | get cf k n ih => exact fun r => ih r (h r)
  | scan cf k n ih => exact fun r => ih r (h r)
  | write b n ih => exact ⟨h.1, ih () h.2⟩
  | readLock _ n ih => exact fun r hr => ih r (h r hr)
  | writeLock n ih => exact fun r hr => ih r (h r hr)
  | setIndexed x n ih => exact ⟨h.1, ih () h.2⟩

/-- The call, if it looks up `m`, reports that `m` is not indexed or fails. -/
def Misses (m : Identifier) (a : Access) (p : Prog Answer) : Prop :=
  p.AllIf (fun ix => ¬ Has m ix) (fun _ => True) (fun x => m ∈ a.lookups → Res.NotIndexed (.ok x))

theorem misses_access {m : Identifier} (O : IdentOrder) (a : Access) (hn : ¬ a.Indexes m) : Misses m a (accessProg X O a) := by
  have keep : ∀ (n : Identifier), n ≠ m → ∀ ix : SSet Identifier, ¬ Has m ix → ¬ Has m (ix.add n) := by
    intro n hne ix hix h
    have h : (ix.add n).contains m = true := h
    rw [SSet.contains_add, Bool.or_eq_true] at h
    rcases h with h | h
    · exact hne (by simpa using h : m = n).symm
    · exact hix h
  have weak : ∀ {p : Prog Answer}, m ∉ a.lookups → p.AllIf (fun ix => ¬ Has m ix) (fun _ => True) (fun _ => True) → Misses m a p :=
    fun hm h => h.mono (fun _ _ h => absurd h hm)
  have look : ∀ {α : Type} {n : Identifier} {p : Prog (DynIter α)} {f : Option (DynIter α) → Answer}, p.Reading →
      a.lookups = [n] → Res.NotIndexed (.ok (f none)) → Misses m a (ifIndexed n p >>= fun o => (pure (f o) : Prog Answer)) := by
    intro α n p f hp hl hf ix hix
    show Prog.AllIf _ _ _ (Prog.bind (if _ then _ else _) _)
    by_cases hc : SMap.contains ix n = true
    · rw [if_pos hc]
      show Prog.AllIf _ _ _ (Prog.bind (Prog.bind p _) _)
      rw [Prog.bind_assoc']
      refine hp.thenIf (fun l hm => ?_)
      rw [hl, List.mem_singleton] at hm
      subst hm
      exact absurd hc hix
    · rw [if_neg hc]
      exact fun _ => hf
  cases a with
  | lib op =>
    by_cases hm : m ∈ op.lookups
    · exact (fails_call O op hm).bind (fun _ h => h.elim)
    · refine weak hm ((App.call_allIf O op (fun n e ix h => ?_)).bind (fun _ _ => trivial))
      exact keep n (fun e' => hn (show op = _ by rw [e, e'])) ix h
  | write w =>
    refine weak (fun h => nomatch h) ((App.txn_allIf O w (fun n e ix h => ?_)).bind (fun _ _ => trivial))
    exact keep n (fun e' => hn (show w = _ by rw [e, e'])) ix h
  | vertexIdsWithProperty n => exact look ((rd_vpvIterate _).bind (fun _ => rd_existingIds _)) rfl trivial
  | vertexIdsWithPropertyValue n v => exact look ((rd_vpvIterate _).bind (fun _ => rd_existingIds _)) rfl trivial
  | edgesWithProperty n => exact look (rd_epvIterate _) rfl trivial
  | edgesWithPropertyValue n v => exact look (rd_epvIterate _) rfl trivial
  | _ => exact weak (fun h => nomatch h) (rd_access O _ rfl).allIf

theorem missRules (m : Identifier) : Rules X io (fun a => ¬ a.Indexes m) (fun s => ¬ Has m s.indexed) (Misses m) (fun _ => True) where
  enter O a ha := misses_access O a ha
  fault hi a := trivial
  get s a cf b n hs h := h _
  scan s a cf lo n hs h := h _
  scanFails hi s a cf lo n i hs h := h _
  write s a b n hs h := ⟨trivial, hs, h.2⟩
  readLock s a held n hs h := h _ hs
  writeLock s a n hs h := h _ hs
  setIndexed s a ix n hs h := ⟨h.1, h.2⟩

end Rocks
end IndraDB
