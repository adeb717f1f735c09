import Verif.Spec.AnyMoments
import Verif.Proofs.Mimic
import Verif.Proofs.UnreadConc
import Verif.Proofs.Unread
/-
Calls that overlap others and meet I/O errors, or values that cannot be read: what they report.
-/
namespace IndraDB

theorem Upto.upToError {α : Type} {l' l : DynIter α} (h : Upto l' l) : UpToError l' l := by
  induction h with
  | nil => exact .inl rfl
  | cons x _ ih =>
    rcases ih with rfl | ⟨i, rfl⟩
    · exact .inl rfl
    · exact .inr ⟨i + 1, rfl⟩
  | cut l => exact .inr ⟨0, rfl⟩

theorem Answer.UpToError.refl (x : Answer) : x.UpToError x := by
  cases x with
  | vertices l => exact ⟨l, rfl, .inl rfl⟩
  | edges l => exact ⟨l, rfl, .inl rfl⟩
  | ids o => cases o with
    | none => rfl
    | some l => exact ⟨l, rfl, .inl rfl⟩
  | indexedEdges o => cases o with
    | none => rfl
    | some l => exact ⟨l, rfl, .inl rfl⟩
  | _ => rfl

namespace Rocks
open Prog LockConc Mim
variable {X : Cfg} {M : Rocks → Prop}

/-- What a read may return that meets I/O errors. -/
def AnswersUpto (X : Cfg) (M : Rocks → Prop) (a : Access) (x : Answer) : Prop :=
  ∃ x', x.UpToError x' ∧ Moment.Answered (moments X M) rocksEdgeLt a x'

theorem mi_access (O : IdentOrder) (a : Access) (hc : a.countsAll = false) (ha : a.isRead = true ∨ ∃ q, a = .lib (.get q)) :
    Mim Answer.UpToError (accessProg X O a) (accessProg X O a) := by
  have eqv : ∀ {α : Type} {p : Prog α} {f : α → Answer}, Mim Eq p p → Mim Answer.UpToError (p >>= fun x => (Pure.pure (f x) : Prog Answer))
      (p >>= fun x => (Pure.pure (f x) : Prog Answer)) := fun h => h.bindEq (fun _ => .ok (Answer.UpToError.refl _))
  cases a with
  | lib op =>
    rcases ha with h | ⟨q, h⟩
    · cases h
    · cases h
      exact eqv ((mi_query q hc []).bindEq (fun _ => .ok rfl))
  | write w => rcases ha with h | ⟨q, h⟩ <;> cases h
  | vertexCount => cases hc
  | edgeCount => cases hc
  | allVertices => exact (mi_vertexIterate _).bind (fun _ _ h => .ok ⟨_, rfl, h.upToError⟩)
  | rangeVertices o => exact (mi_vertexIterate _).bind (fun _ _ h => .ok ⟨_, rfl, h.upToError⟩)
  | specificVertices ids => exact eqv (mi_specificVertices _)
  | specificEdges ids => exact eqv (mi_specificEdges _)
  | allEdges => exact (mi_edgeIterateAll _).bind (fun _ _ h => .ok ⟨_, rfl, h.upToError⟩)
  | rangeEdges o => exact (mi_edgeIterateRange _ _).bind (fun _ _ h => .ok ⟨_, rfl, h.upToError⟩)
  | rangeReversedEdges o => exact (mi_edgeIterateRange _ _).bind (fun _ _ h => .ok ⟨_, rfl, h.upToError⟩)
  | vertexIdsWithProperty n =>
    refine (mi_vertexIdsWithProperty n).bind (fun _ _ h => ?_)
    rcases h with ⟨rfl, rfl⟩ | ⟨l', l, rfl, rfl, h⟩
    · exact .ok rfl
    · exact .ok ⟨_, rfl, h.upToError⟩
  | vertexIdsWithPropertyValue n v =>
    refine (mi_vertexIdsWithPropertyValue n v).bind (fun _ _ h => ?_)
    rcases h with ⟨rfl, rfl⟩ | ⟨l', l, rfl, rfl, h⟩
    · exact .ok rfl
    · exact .ok ⟨_, rfl, h.upToError⟩
  | edgesWithProperty n =>
    refine (mi_edgesWithProperty n).bind (fun _ _ h => ?_)
    rcases h with ⟨rfl, rfl⟩ | ⟨l', l, rfl, rfl, h⟩
    · exact .ok rfl
    · exact .ok ⟨_, rfl, h.upToError⟩
  | edgesWithPropertyValue n v =>
    refine (mi_edgesWithPropertyValue n v).bind (fun _ _ h => ?_)
    rcases h with ⟨rfl, rfl⟩ | ⟨l', l, rfl, rfl, h⟩
    · exact .ok rfl
    · exact .ok ⟨_, rfl, h.upToError⟩
  | vertexProperty v n => exact eqv (mi_vpGet _ _)
  | edgeProperty e n => exact eqv (mi_epGet _ _)
  | vertexProperties v => exact eqv (mi_propItems (mi_vpIterate _))
  | edgeProperties e => exact eqv (mi_propItems (mi_epIterate _))

theorem sawF_access (hM : ∀ s, M s → Wf X s.kv) (hR : ∀ s, M s → Readable X s.kv) (hne : ∃ s, M s) (O : IdentOrder) (a : Access)
    (hc : a.countsAll = false) (ha : a.isRead = true ∨ ∃ q, a = .lib (.get q)) : (accessProg X O a).SawF M (AnswersUpto X M a) :=
  (mi_access O a hc ha).saw hne (saw_access hM hR hne O a ha)

namespace App

/-- Inside a reading call. -/
def LooksF (X : Cfg) (M : Rocks → Prop) (a : Access) (p : Prog Answer) : Prop :=
  a.countsAll = false → (a.isRead = true ∨ ∃ q, a = .lib (.get q)) → p.SawF M (AnswersUpto X M a)

theorem LooksF.step {io : Bool} {c : Nat} {S S' : App} {e : List AppEv} (hs : Step X io S e S') (he : ∀ a, .enter c a ∉ e) (hm : M S.db)
    (H : ∀ a p k, S.tasks c = .inside a p k → LooksF X M a p) : ∀ a p k, S'.tasks c = .inside a p k → LooksF X M a p := by
  have silent : ∀ (i : Nat) (b : Access) (p p' : Prog Answer) (k : Except Error Answer → Task), S.tasks i = .inside b p k →
      S'.tasks = setAt S.tasks i (.inside b p' k) → (∀ P : Answer → Prop, p.SawF M P → p'.SawF M P) →
      ∀ a p k, S'.tasks c = .inside a p k → LooksF X M a p := by
    intro i b p p' k hi hc hsaw a q j hq
    rw [hc] at hq
    rcases setAt_eq hq with ⟨rfl, h4⟩ | ⟨_, h4⟩
    · cases h4
      exact fun h1 hr => hsaw _ (H _ _ _ hi h1 hr)
    · exact H _ _ _ h4
  have out : ∀ (i : Nat) (t : TaskAt), (∀ a p k, t ≠ .inside a p k) → S'.tasks = setAt S.tasks i t →
      ∀ a p k, S'.tasks c = .inside a p k → LooksF X M a p := by
    intro i t ht hc a q j hq
    rw [hc] at hq
    rcases setAt_eq hq with ⟨rfl, h4⟩ | ⟨_, h4⟩
    · exact absurd h4 (ht _ _ _)
    · exact H _ _ _ h4
  cases hs with
  | start i t hi => exact out i _ (fun _ _ _ h => by cases h) rfl
  | stop i t hi ht => exact out i _ (fun _ _ _ h => by cases h) rfl
  | enter i O a k hi =>
    intro b q j hq
    rcases setAt_eq hq with ⟨rfl, h4⟩ | ⟨_, h4⟩
    · exact absurd (List.mem_singleton.2 rfl) (he a)
    · exact H _ _ _ h4
  | flushFails i a k _ hi _ =>
    intro b q j hq
    rcases setAt_eq hq with ⟨rfl, h4⟩ | ⟨_, h4⟩
    · exact absurd (List.mem_singleton.2 rfl) (he a)
    · exact H _ _ _ h4
  | get i a k cf b n hi => exact silent i _ _ _ _ hi rfl (fun P hp => hp _ hm)
  | getFails i a k _ _ _ _ hi => exact silent i _ _ _ _ hi rfl (fun P hp => trivial)
  | scan i a k cf b n hi => exact silent i _ _ _ _ hi rfl (fun P hp => hp _ hm _ (Upto.refl _))
  | scanFails i j a k _ _ _ _ hi => exact silent i _ _ _ _ hi rfl (fun P hp => hp _ hm _ (Upto.fails _ _))
  | write i a k b n hi => exact silent i _ _ _ _ hi rfl (fun P hp => hp.elim)
  | writeFails i a k _ _ _ hi => exact silent i _ _ _ _ hi rfl (fun P hp => trivial)
  | readLock i a k held n hi hw => exact silent i _ _ _ _ hi rfl (fun P hp => hp _ hm)
  | writeLock i a k n hi => exact silent i _ _ _ _ hi rfl (fun P hp => hp.elim)
  | setIndexed i a k ix n hi => exact silent i _ _ _ _ hi rfl (fun P hp => hp.elim)
  | unlock i a k r hi hw => exact H
  | unlockRead i a k r hi hw => exact H
  | leave i a k r hi hw hr => exact out i _ (Rocks.after_outside k r) rfl

/-- What calls report is explained by the moments since a time when the task was outside, up to an I/O error. -/
theorem Through.answeredF {io : Bool} {s : Rocks} {h1 h2 : List AppEv} {A S : App} {l : List Rocks} (hs : Sound X (CanRead X) s.kv)
    (hx : Exec X io s h1 A) (ht : Through X io A h2 l S) (ho : OkEnters (Access.ValuesOk (CanRead X)) (h1 ++ h2)) {c : Nat}
    (hc : A.Outside c) (a : Access) (x : Answer) (hr : AppEv.leave c a (.ok x) ∈ h2) (hn : a.countsAll = false)
    (hk : a.isRead = true ∨ ∃ q, a = .lib (.get q)) : AnswersUpto X (· ∈ l) a x := by
  -- all states are well formed
  have ok : ∀ {g l' S'}, Through X io A g l' S' → OkEnters (Access.ValuesOk (CanRead X)) (h1 ++ g) → ∀ t ∈ l', Sound X (CanRead X) t.kv := by
    intro g l' S' ht
    induction ht with
    | nil =>
      intro ho t h
      rw [List.mem_singleton] at h; subst h
      exact ((appRules (io := io)).exec hs hx (by rwa [List.append_nil] at ho)).db
    | @snoc g e l' S1 S2 ht hst ih =>
      intro ho t h
      have ho' : OkEnters (Access.ValuesOk (CanRead X)) (h1 ++ g) := by
        rw [← List.append_assoc] at ho; exact ho.left
      rcases List.mem_append.1 h with h | h
      · exact ih ho' t h
      · rw [List.mem_singleton] at h; subst h
        exact ((appRules (io := io)).exec hs ((ht.from.exec hx).snoc hst) (by rw [List.append_assoc]; exact ho)).db
  have hok := ok ht ho
  have hM : ∀ t, t ∈ l → Wf X t.kv := fun t h => (hok t h).wf
  have hR : ∀ t, t ∈ l → Readable X t.kv := fun t h => (hok t h).values.readable
  have key : ∀ {g l' S'}, Through X io A g l' S' → (∀ t ∈ l', t ∈ l) →
      (∀ a p k, S'.tasks c = .inside a p k → LooksF X (· ∈ l) a p) ∧
      ∀ a x, AppEv.leave c a (.ok x) ∈ g → a.countsAll = false → (a.isRead = true ∨ ∃ q, a = .lib (.get q)) →
        AnswersUpto X (· ∈ l) a x := by
    intro g l' S' ht
    induction ht with
    | nil => exact fun _ => ⟨fun a p k h => absurd h (hc a p k), fun a x h => (nomatch h)⟩
    | @snoc g e l' S1 S2 ht hst ih =>
      intro hl
      obtain ⟨i1, i2⟩ := ih (fun t h => hl t (List.mem_append_left _ h))
      have hm : S1.db ∈ l := hl _ (List.mem_append_left _ ht.last)
      constructor
      · by_cases he : ∃ a, AppEv.enter c a ∈ e
        · obtain ⟨b, hb⟩ := he
          cases hst.enter_only hb
          intro a p k hp
          cases hst with
          | enter _ O _ j hi =>
            simp only [setAt_self] at hp
            cases hp
            exact fun h1 h2 => sawF_access hM hR ⟨_, hm⟩ O _ h1 h2
          | flushFails _ _ j _ hi hf =>
            simp only [setAt_self] at hp
            cases hp
            exact fun h1 h2 => trivial
        · exact LooksF.step hst (fun a ha => he ⟨a, ha⟩) hm i1
      · intro a x h hn hk
        rcases List.mem_append.1 h with h | h
        · exact i2 a x h hn hk
        · cases hst with
          | leave i b j r hi _ _ =>
            simp only [List.mem_singleton] at h
            cases h
            exact (i1 _ _ _ hi) hn hk
          | _ => simp at h
  exact (key ht (fun t h => h)).2 a x hr hn hk

variable {d : Bytes → Option Json}

/-- The same steps of a database that can read everything. -/
theorem Through.reading {io : Bool} (hd : X.Reader d) {A A' S : App} (hA : Sim A A') {h : List AppEv} {l : List Rocks}
    (ht : Through X io A h l S) : ∃ S', Through (X.reading d) true A' h l S' ∧ Sim S S' := by
  induction ht with
  | nil =>
    have : Through (X.reading d) true A' [] [A.db] A' := by rw [← hA.db]; exact .nil
    exact ⟨A', this, hA⟩
  | snoc _ hs ih =>
    obtain ⟨S', h1, h2⟩ := ih
    obtain ⟨T', h3, h4⟩ := h2.step hd hs
    have := h1.snoc h3
    rw [h4.db] at this
    exact ⟨T', this, h4⟩

theorem Sim.outside {S S' : App} (h : Sim S S') {c : Nat} (hc : S.Outside c) : S'.Outside c := by
  intro a p k hq
  have := h.tasks c
  rw [hq] at this
  generalize hx : S.tasks c = x at this
  cases this
  exact hc _ _ _ hx

end App
end Rocks
end IndraDB
