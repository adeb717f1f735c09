import Verif.Spec.AppMoments
import Verif.Proofs.Moments
import Verif.Proofs.AppProgress
/-
Overlapping calls and transaction methods report what was true at moments of the call.
-/
namespace IndraDB
namespace Rocks
open Prog LockConc
variable {X : Cfg} {M : Rocks → Prop}

/-- A program that looks once. -/
theorem saw_one {α : Type} {p : Prog α} (h : p.Saw M (fun a => ∃ s, M s ∧ p.run s = (s, .ok a))) {R : Rocks → Answer → Prop} {f : α → Answer}
    (hR : ∀ s a, M s → p.eval s = .ok a → R s (f a)) :
    (p >>= fun a => (pure (f a) : Prog Answer)).Saw M (fun x => ∃ s, M s ∧ R s x) :=
  h.bind (fun a ⟨s, hs, hr⟩ => ⟨s, hs, hR s a hs (by show (p.run s).2 = _; rw [hr])⟩)

/-- The programs of reading calls return what is explained by the moments of the call. -/
theorem saw_access (hM : ∀ s, M s → Wf X s.kv) (hR : ∀ s, M s → Readable X s.kv) (hne : ∃ s, M s) (O : IdentOrder) (a : Access)
    (ha : a.isRead = true ∨ ∃ q, a = .lib (.get q)) :
    (accessProg X O a).Saw M (Moment.Answered (moments X M) rocksEdgeLt a) := by
  have F : ∀ s, M s → Faithful (reads X s) (graph X s) (index X s) (conv X) := fun s hs => faithful s (hM s hs) (hR s hs)
  have elt : (conv X).edgeLt = rocksEdgeLt := by funext a b; exact edgeLt_eq a b
  cases a with
  | lib op =>
    rcases ha with h | ⟨q, h⟩
    · cases h
    · cases h
      exact (saw_get hM hR hne O q).bind (fun r ⟨inc, v, h1, h2⟩ => ⟨inc, v, by rw [h1], h2⟩)
  | write w => rcases ha with h | ⟨q, h⟩ <;> cases h
  | vertexCount =>
    have h1 : (vertexCountP X).Saw M (fun n => ∃ s, M s ∧ ∃ l, (vertexIterate X Uuid.nil).run s = (s, .ok l) ∧ n = l.length) :=
      (saw_vertexIterate Uuid.nil).bind (fun l ⟨s, hs, hr⟩ => ⟨s, hs, l, hr, rfl⟩)
    refine h1.bind (fun n ⟨s, hs, l, hl, hn⟩ => ?_)
    obtain ⟨vs, h2, _, h3⟩ := (F s hs).allVertices
    have h2 : ((vertexIterate X Uuid.nil).run s).2 = .ok (vs.map .ok) := h2
    rw [hl] at h2
    cases h2
    exact ⟨moment X s, vs, ⟨s, hs, rfl⟩, h3, by rw [hn, List.length_map]⟩
  | edgeCount =>
    have h1 : edgeCountP.Saw M (fun n => ∃ s, M s ∧ ∃ l, (edgeIterateAll .edgeRanges).run s = (s, .ok l) ∧ n = l.length) :=
      (saw_edgeIterateAll .edgeRanges).bind (fun l ⟨s, hs, hr⟩ => ⟨s, hs, l, hr, rfl⟩)
    refine h1.bind (fun n ⟨s, hs, l, hl, hn⟩ => ?_)
    obtain ⟨vs, h2, _, h3⟩ := (F s hs).allEdges
    have h2 : ((edgeIterateAll .edgeRanges).run s).2 = .ok (vs.map .ok) := h2
    rw [hl] at h2
    cases h2
    exact ⟨moment X s, vs, ⟨s, hs, rfl⟩, elt ▸ h3, by rw [hn, List.length_map]⟩
  | allVertices =>
    refine (saw_one (saw_vertexIterate _) (R := fun s x => ∃ l, Enumerates vertexLt l (fun v => (graph X s).vertex v.id = some v.t) ∧
      x = .vertices (l.map .ok)) (fun s a hs he => ?_)).mono (fun x ⟨s, hs, l, h1, h2⟩ => ⟨moment X s, l, ⟨s, hs, rfl⟩, h1, h2⟩)
    obtain ⟨l, h1, _, h2⟩ := (F s hs).allVertices
    have h1 : (vertexIterate X Uuid.nil).eval s = .ok (l.map .ok) := h1
    rw [he] at h1; cases h1
    exact ⟨l, h2, rfl⟩
  | rangeVertices o =>
    refine (saw_one (saw_vertexIterate _) (R := fun s x => ∃ l, Enumerates vertexLt l (fun v => (graph X s).vertex v.id = some v.t ∧
      Order.lt v.id o = false) ∧ x = .vertices (l.map .ok)) (fun s a hs he => ?_)).mono
      (fun x ⟨s, hs, l, h1, h2⟩ => ⟨moment X s, l, ⟨s, hs, rfl⟩, h1, h2⟩)
    obtain ⟨l, h1, h2⟩ := (F s hs).rangeVertices o
    have h1 : (vertexIterate X o).eval s = .ok (l.map .ok) := h1
    rw [he] at h1; cases h1
    exact ⟨l, h2, rfl⟩
  | allEdges =>
    refine (saw_one (saw_edgeIterateAll _) (R := fun s x => ∃ l, Enumerates rocksEdgeLt l (fun e => (graph X s).edge e = true) ∧
      x = .edges (l.map .ok)) (fun s a hs he => ?_)).mono (fun x ⟨s, hs, l, h1, h2⟩ => ⟨moment X s, l, ⟨s, hs, rfl⟩, h1, h2⟩)
    obtain ⟨l, h1, _, h2⟩ := (F s hs).allEdges
    have h1 : (edgeIterateAll .edgeRanges).eval s = .ok (l.map .ok) := h1
    rw [he] at h1; cases h1
    exact ⟨l, elt ▸ h2, rfl⟩
  | rangeEdges o =>
    refine (saw_one (p := edgeIterateRange X .edgeRanges o) (Saw.scan (fun _ => ⟨_, rfl⟩))
      (R := fun s x => ∃ l, Enumerates rocksEdgeLt l (fun e => (graph X s).edge e = true ∧
      rocksEdgeLt e o = false) ∧ x = .edges (l.map .ok)) (fun s a hs he => ?_)).mono
      (fun x ⟨s, hs, l, h1, h2⟩ => ⟨moment X s, l, ⟨s, hs, rfl⟩, h1, h2⟩)
    obtain ⟨l, h1, h2⟩ := (F s hs).rangeEdges o
    have h1 : (edgeIterateRange X .edgeRanges o).eval s = .ok (l.map .ok) := h1
    rw [he] at h1; cases h1
    exact ⟨l, elt ▸ h2, rfl⟩
  | rangeReversedEdges o =>
    refine (saw_one (p := edgeIterateRange X .reversedEdgeRanges o) (Saw.scan (fun _ => ⟨_, rfl⟩))
      (R := fun s x => ∃ l, Enumerates rocksEdgeLt l (fun e => (graph X s).edge e.reversed = true ∧
      rocksEdgeLt e o = false) ∧ x = .edges (l.map .ok)) (fun s a hs he => ?_)).mono
      (fun x ⟨s, hs, l, h1, h2⟩ => ⟨moment X s, l, ⟨s, hs, rfl⟩, h1, h2⟩)
    obtain ⟨l, h1, h2⟩ := (F s hs).rangeReversedEdges o
    have h1 : (edgeIterateRange X .reversedEdgeRanges o).eval s = .ok (l.map .ok) := h1
    rw [he] at h1; cases h1
    exact ⟨l, elt ▸ h2, rfl⟩
  | specificVertices ids => exact (saw_specificVertices hM ids).bind (fun r ⟨l, h1, h2⟩ => ⟨l, h2, by rw [h1]⟩)
  | specificEdges es => exact (saw_specificEdges es).bind (fun r ⟨l, h1, h2⟩ => ⟨l, h2, by rw [h1]⟩)
  | vertexIdsWithProperty n =>
    refine (saw_vOpt hM n _ (fun m _ => m = n) (vPrefix_name n) (·.vLists n) (fun s hs i => ?_)).bind (fun o ⟨h1, h2⟩ => ?_)
    · show listed (s.kv .vertexPropertyValues) n i.bytes = true ↔ _
      rw [vlisted_iff s (hM s hs)]
      exact ⟨fun ⟨h, hh⟩ => ⟨n, h, rfl, hh⟩, fun ⟨m, h, hm, hh⟩ => ⟨h, by rw [← hm]; exact hh⟩⟩
    · cases o with
      | none => obtain ⟨s, hs, h⟩ := h1 rfl; exact .inl ⟨rfl, moment X s, ⟨s, hs, rfl⟩, h⟩
      | some r => obtain ⟨⟨s, hs, h⟩, ids, hr, hi⟩ := h2 r rfl; exact .inr ⟨ids, ⟨moment X s, ⟨s, hs, rfl⟩, h⟩, hi, by rw [hr]⟩
  | vertexIdsWithPropertyValue n v =>
    refine (saw_vOpt hM n _ (fun m h => m = n ∧ h = X.H v.stream) (vPrefix_value n v) (·.vListsValue n v) (fun s hs i => ?_)).bind
      (fun o ⟨h1, h2⟩ => ?_)
    · exact ⟨fun hh => ⟨n, _, ⟨rfl, rfl⟩, hh⟩, fun ⟨m, h, ⟨hm, hh⟩, hx⟩ => by rw [hm, hh] at hx; exact hx⟩
    · cases o with
      | none => obtain ⟨s, hs, h⟩ := h1 rfl; exact .inl ⟨rfl, moment X s, ⟨s, hs, rfl⟩, h⟩
      | some r => obtain ⟨⟨s, hs, h⟩, ids, hr, hi⟩ := h2 r rfl; exact .inr ⟨ids, ⟨moment X s, ⟨s, hs, rfl⟩, h⟩, hi, by rw [hr]⟩
  | edgesWithProperty n =>
    refine (saw_eOpt hM n _ (fun m _ => m = n) (ePrefix_name n) (·.eLists n) (fun s hs i => ?_)).bind (fun o ⟨h1, h2⟩ => ?_)
    · show listed (s.kv .edgePropertyValues) n (edgeKey X i) = true ↔ _
      rw [elisted_iff s (hM s hs)]
      exact ⟨fun ⟨h, hh⟩ => ⟨n, h, rfl, hh⟩, fun ⟨m, h, hm, hh⟩ => ⟨h, by rw [← hm]; exact hh⟩⟩
    · cases o with
      | none => obtain ⟨s, hs, h⟩ := h1 rfl; exact .inl ⟨rfl, moment X s, ⟨s, hs, rfl⟩, h⟩
      | some r => obtain ⟨⟨s, hs, h⟩, l, hr, m, hm, hi⟩ := h2 r rfl; exact .inr ⟨m, l, ⟨moment X s, ⟨s, hs, rfl⟩, h⟩, hm, hi, by rw [hr]⟩
  | edgesWithPropertyValue n v =>
    refine (saw_eOpt hM n _ (fun m h => m = n ∧ h = X.H v.stream) (ePrefix_value n v) (·.eListsValue n v) (fun s hs i => ?_)).bind
      (fun o ⟨h1, h2⟩ => ?_)
    · show eEntry X s n (X.H v.stream) i = true ↔ _
      exact ⟨fun hh => ⟨n, _, ⟨rfl, rfl⟩, hh⟩, fun ⟨m, h, ⟨hm, hh⟩, hx⟩ => by rw [hm, hh] at hx; exact hx⟩
    · cases o with
      | none => obtain ⟨s, hs, h⟩ := h1 rfl; exact .inl ⟨rfl, moment X s, ⟨s, hs, rfl⟩, h⟩
      | some r => obtain ⟨⟨s, hs, h⟩, l, hr, m, hm, hi⟩ := h2 r rfl; exact .inr ⟨m, l, ⟨moment X s, ⟨s, hs, rfl⟩, h⟩, hm, hi, by rw [hr]⟩
  | vertexProperty v n =>
    exact (saw_vpGet hR v.id n).bind (fun o ⟨s, hs, h⟩ => ⟨moment X s, ⟨s, hs, rfl⟩, by rw [h]; rfl⟩)
  | edgeProperty e n =>
    exact (saw_epGet hR e n).bind (fun o ⟨s, hs, h⟩ => ⟨moment X s, ⟨s, hs, rfl⟩, by rw [h]; rfl⟩)
  | vertexProperties v =>
    refine (saw_one (saw_vpIterate v.id) (R := fun s x => ∃ l, Enumerates (fun a b : Identifier × Json => Order.lt a.1 b.1) l
      (fun p => (graph X s).vprop v.id p.1 = some p.2) ∧ x = .props (l.map .ok)) (fun s a hs he => ?_)).mono
      (fun x ⟨s, hs, l, h1, h2⟩ => ⟨moment X s, l, ⟨s, hs, rfl⟩, h1, h2⟩)
    have h0 := (F s hs).allVertexProps v
    rw [if_neg (by simp [conv])] at h0
    obtain ⟨l, h1, h2⟩ := h0
    have h1 : (propItems (vpIterate X v.id)).eval s = .ok (l.map .ok) := h1
    rw [he] at h1; cases h1
    exact ⟨l, h2, rfl⟩
  | edgeProperties e =>
    refine (saw_one (saw_epIterate e) (R := fun s x => ∃ l, Enumerates (fun a b : Identifier × Json => Order.lt a.1 b.1) l
      (fun p => (graph X s).eprop e p.1 = some p.2) ∧ x = .props (l.map .ok)) (fun s a hs he => ?_)).mono
      (fun x ⟨s, hs, l, h1, h2⟩ => ⟨moment X s, l, ⟨s, hs, rfl⟩, h1, h2⟩)
    obtain ⟨l, h1, h2⟩ := (F s hs).allEdgeProps e
    have h1 : (propItems (epIterate X e)).eval s = .ok (l.map .ok) := h1
    rw [he] at h1; cases h1
    exact ⟨l, h2, rfl⟩

namespace App

theorem CalmStep.faulty {c : Nat} {S S' : App} {e : List AppEv} (h : CalmStep X c S e S') : Step X true S e S' := by
  rcases h with h | h
  · exact h.weaken
  · exact h.1

theorem Watch.exec {s : Rocks} {c : Nat} {h : List AppEv} {l : List Rocks} {S : App} (w : Watch X s c h l S) : Exec X true s h S := by
  induction w with
  | start => exact .nil
  | enter _ hs ih => exact ih.snoc hs.faulty
  | during _ hs _ _ ih => exact ih.snoc hs.faulty
  | outside _ hs _ _ ih => exact ih.snoc hs.faulty

/-- A step with the event of a task making a call has no other event. -/
theorem Step.enter_only {io : Bool} {c : Nat} {a : Access} {S S' : App} {e : List AppEv} (h : Step X io S e S') (he : .enter c a ∈ e) :
    e = [.enter c a] := by
  cases h <;> simp at he
  · obtain ⟨rfl, rfl⟩ := he; rfl
  · obtain ⟨rfl, rfl⟩ := he; rfl

theorem Watch.exists {s : Rocks} {h : List AppEv} {S : App} (hx : Exec X false s h S) (c : Nat) : ∃ l, Watch X s c h l S := by
  induction hx with
  | nil => exact ⟨[], .start⟩
  | @snoc h e S S' hx hs ih =>
    obtain ⟨l, w⟩ := ih
    by_cases he : ∃ a, AppEv.enter c a ∈ e
    · obtain ⟨a, ha⟩ := he
      cases hs.enter_only ha
      exact ⟨_, .enter w (.inl hs)⟩
    · by_cases hp : ∃ a p k, S'.tasks c = .inside a p k
      · exact ⟨_, .during w (.inl hs) (fun a ha => he ⟨a, ha⟩) hp⟩
      · exact ⟨_, .outside w (.inl hs) (fun a ha => he ⟨a, ha⟩) (fun a p k hq => hp ⟨a, p, k, hq⟩)⟩

/-- Inside a reading call. -/
def Looks (X : Cfg) (M : Rocks → Prop) (a : Access) (p : Prog Answer) : Prop :=
  (a.isRead = true ∨ ∃ q, a = .lib (.get q)) → p.Saw M (Moment.Answered (moments X M) rocksEdgeLt a)

theorem Looks.step {c : Nat} {S S' : App} {e : List AppEv} (hs : Step X false S e S') (he : ∀ a, .enter c a ∉ e) (hm : M S.db)
    (H : ∀ a p k, S.tasks c = .inside a p k → Looks X M a p) : ∀ a p k, S'.tasks c = .inside a p k → Looks X M a p := by
  have silent : ∀ (i : Nat) (b : Access) (p p' : Prog Answer) (k : Except Error Answer → Task), S.tasks i = .inside b p k →
      S'.tasks = setAt S.tasks i (.inside b p' k) → (∀ P : Answer → Prop, p.Saw M P → p'.Saw M P) →
      ∀ a p k, S'.tasks c = .inside a p k → Looks X M a p := by
    intro i b p p' k hi hc hsaw a q j hq
    rw [hc] at hq
    rcases setAt_eq hq with ⟨rfl, h4⟩ | ⟨_, h4⟩
    · cases h4
      exact fun hr => hsaw _ (H _ _ _ hi hr)
    · exact H _ _ _ h4
  have out : ∀ (i : Nat) (t : TaskAt), (∀ a p k, t ≠ .inside a p k) → S'.tasks = setAt S.tasks i t →
      ∀ a p k, S'.tasks c = .inside a p k → Looks X M a p := by
    intro i t ht hc a q j hq
    rw [hc] at hq
    rcases setAt_eq hq with ⟨rfl, h4⟩ | ⟨_, h4⟩
    · exact absurd h4 (ht _ _ _)
    · exact H _ _ _ h4
  cases hs with
  | start i t hi => exact out i _ (fun _ _ _ h => by cases h) rfl
  | stop i t hi ht => exact out i _ (fun _ _ _ h => by cases h) rfl
  | enter i O a k hi =>
    intro b q j hq
    rcases setAt_eq hq with ⟨rfl, h4⟩ | ⟨_, h4⟩
    · exact absurd (List.mem_singleton.2 rfl) (he a)
    · exact H _ _ _ h4
  | get i a k cf b n hi => exact silent i _ _ _ _ hi rfl (fun P hp => hp _ hm)
  | getFails _ _ _ _ _ _ h => cases h
  | scan i a k cf b n hi => exact silent i _ _ _ _ hi rfl (fun P hp => hp _ hm)
  | scanFails _ _ _ _ _ _ _ h => cases h
  | write i a k b n hi => exact silent i _ _ _ _ hi rfl (fun P hp => hp.elim)
  | writeFails _ _ _ _ _ h => cases h
  | flushFails _ _ _ h => cases h
  | readLock i a k held n hi hw => exact silent i _ _ _ _ hi rfl (fun P hp => hp _ hm)
  | writeLock i a k n hi => exact silent i _ _ _ _ hi rfl (fun P hp => hp.elim)
  | setIndexed i a k ix n hi => exact silent i _ _ _ _ hi rfl (fun P hp => hp.elim)
  | unlock i a k r hi hw => exact H
  | unlockRead i a k r hi hw => exact H
  | leave i a k r hi hw hr => exact out i _ (Rocks.after_outside k r) rfl

theorem Watch.looks {s : Rocks} {c : Nat} {h : List AppEv} {l : List Rocks} {S : App} (w : Watch X s c h l S)
    (hM : ∀ s, M s → Wf X s.kv) (hR : ∀ s, M s → Readable X s.kv) (hl : ∀ s ∈ l, M s) :
    ∀ a p k, S.tasks c = .inside a p k → S.db ∈ l ∧ Looks X M a p := by
  induction w with
  | start => intro a p k hp; cases hp
  | @enter h l S S' b w hs ih =>
    intro a p k hp
    refine ⟨List.mem_singleton.2 rfl, fun hr => ?_⟩
    have hne : ∃ s, M s := ⟨_, hl _ (List.mem_singleton.2 rfl)⟩
    have key : ∀ io (h : Step X io S [.enter c b] S'), (io = true → S'.tasks c = S.tasks c) → p.Saw M (Moment.Answered (moments X M) rocksEdgeLt a) := by
      intro io h hio
      cases h with
      | enter _ O _ k hi =>
        simp only [setAt_self] at hp
        cases hp
        exact saw_access hM hR hne O _ hr
      | flushFails _ _ k h1 h2 h3 =>
        have := hio h1
        simp only [setAt_self] at this
        rw [h2] at this; cases this
    rcases hs with h | ⟨h, h'⟩
    · exact key _ h (fun h => nomatch h)
    · exact key _ h (fun _ => h')
  | @during h e l S S' w hs he hp ih =>
    have ih := ih (fun s hs => hl s (List.mem_append_left _ hs))
    intro a p k hq
    refine ⟨List.mem_append_right _ (List.mem_singleton.2 rfl), ?_⟩
    rcases hs with h | ⟨h, h'⟩
    · -- the task was inside a call already
      by_cases hin : ∃ a p k, S.tasks c = .inside a p k
      · obtain ⟨b, p', k', hb⟩ := hin
        exact Looks.step h he (hl _ (List.mem_append_left _ (ih _ _ _ hb).1)) (fun a p k h => (ih a p k h).2) a p k hq
      · exfalso
        have : ∀ t, S.tasks c = t → (∀ a p k, t ≠ .inside a p k) := fun t ht a p k h => hin ⟨a, p, k, by rw [ht, h]⟩
        cases h with
        | enter i O b j hi =>
          rcases setAt_eq hq with ⟨rfl, h4⟩ | ⟨_, h4⟩
          · exact he b (List.mem_singleton.2 rfl)
          · exact hin ⟨_, _, _, h4⟩
        | start i t hi =>
          rcases setAt_eq hq with ⟨rfl, h4⟩ | ⟨_, h4⟩
          · cases h4
          · exact hin ⟨_, _, _, h4⟩
        | stop i t hi =>
          rcases setAt_eq hq with ⟨rfl, h4⟩ | ⟨_, h4⟩
          · cases h4
          · exact hin ⟨_, _, _, h4⟩
        | leave i b j r hi =>
          rcases setAt_eq hq with ⟨rfl, h4⟩ | ⟨_, h4⟩
          · exact Rocks.after_outside j r _ _ _ h4
          · exact hin ⟨_, _, _, h4⟩
        | unlock i => exact hin ⟨_, _, _, hq⟩
        | unlockRead i => exact hin ⟨_, _, _, hq⟩
        | getFails _ _ _ _ _ _ h => cases h
        | scanFails _ _ _ _ _ _ _ h => cases h
        | writeFails _ _ _ _ _ h => cases h
        | flushFails _ _ _ h => cases h
        | _ =>
          rename_i hi
          rcases setAt_eq hq with ⟨rfl, h4⟩ | ⟨_, h4⟩
          · first | exact hin ⟨_, _, _, ‹S.tasks c = _›⟩ | exact hin ⟨_, _, _, hi⟩
          · exact hin ⟨_, _, _, h4⟩
    · rw [h'] at hq
      exact (ih _ _ _ hq).2
  | outside w hs he hp ih =>
    intro a p k hq
    exact absurd hq (hp a p k)

/-- The states are well formed. -/
theorem Watch.ok {s : Rocks} {c : Nat} {h : List AppEv} {l : List Rocks} {S : App} (w : Watch X s c h l S)
    (hs : Sound X (CanRead X) s.kv) (ho : OkEnters (Access.ValuesOk (CanRead X)) h) : ∀ t ∈ l, Sound X (CanRead X) t.kv := by
  have step : ∀ {h : List AppEv} {S : App}, Exec X true s h S → OkEnters (Access.ValuesOk (CanRead X)) h → Sound X (CanRead X) S.db.kv :=
    fun hx ho => ((appRules (io := true)).exec hs hx ho).db
  induction w with
  | start => intro t ht; cases ht
  | enter w hc ih =>
    intro t ht
    rw [List.mem_singleton] at ht; subst ht
    exact step (w.enter hc).exec ho
  | during w hc he hp ih =>
    intro t ht
    rcases List.mem_append.1 ht with ht | ht
    · exact ih ho.left t ht
    · rw [List.mem_singleton] at ht; subst ht
      exact step (w.during hc he hp).exec ho
  | outside w hs he hp ih => exact ih ho.left

end App

end Rocks
end IndraDB
