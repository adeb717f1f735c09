import Verif.Proofs.AppTrack
import Verif.Proofs.RocksFill
/-
`index_property` on a RocksDB datastore while transactions and library calls overlap: no owner is missed.
-/
set_option linter.unusedSimpArgs false
namespace IndraDB
namespace Rocks
open Prog LockConc

theorem Fills.map {X : Cfg} {R : Json → UInt64 → Prop} {n : Identifier} {o : Owner} {bytes : Bytes} {w : Json} {α β : Type} {p : Prog α}
    (h : Fills X R n o bytes w p) (f : α → β) : Fills X R n o bytes w (p >>= fun a => (pure (f a) : Prog β)) := by
  show Fills X R n o bytes w (p.bind _)
  induction p with
  | get cf k g ih => exact fun kv hk => ih _ (h kv hk)
  | scan cf k g ih => exact fun kv hk => ih _ (h kv hk)
  | write b g ih => exact h
  | _ => exact h.elim

theorem Holds.map' {X : Cfg} {R : Json → UInt64 → Prop} {n : Identifier} {o : Owner} {wr : Bool} {ix : SSet Identifier} {α β : Type}
    {p : Prog α} (h : Holds X R n o wr ix p) (f : α → β) : Holds X R n o wr ix (p >>= fun a => (pure (f a) : Prog β)) := by
  show Holds X R n o wr ix (p.bind _)
  induction p generalizing ix with
  | done r => cases r <;> trivial
  | get cf k g ih => exact fun r => ih r (h r)
  | scan cf k g ih => exact fun r => ih r (h r)
  | write b g ih => exact ⟨h.1, ih () h.2⟩
  | setIndexed x g ih => exact ⟨h.1, h.2.1, fun h1 h2 b w hw => (h.2.2.1 h1 h2 b w hw).map f, ih () h.2.2.2⟩
  | _ => exact h.elim

theorem Waits.map' {X : Cfg} {R : Json → UInt64 → Prop} {n : Identifier} {o : Owner} {α β : Type}
    {p : Prog α} (h : Waits X R n o p) (f : α → β) : Waits X R n o (p >>= fun a => (pure (f a) : Prog β)) := by
  show Waits X R n o (p.bind _)
  induction p with
  | done r => cases r <;> trivial
  | get cf k g ih => exact fun r => ih r (h r)
  | scan cf k g ih => exact fun r => ih r (h r)
  | write b g ih => exact ⟨h.1, ih () h.2⟩
  | readLock held g ih =>
    cases held with
    | false => exact fun r => ih r (h r)
    | true => exact fun r => (h r).map' f
  | writeLock g ih => exact fun r => (h r).map' f
  | setIndexed x g ih => exact h.elim

/-- A reading method that takes no lock it keeps. -/
theorem Waits.reads {X : Cfg} {R : Json → UInt64 → Prop} {n : Identifier} {o : Owner} {α : Type} {p : Prog α} (hr : p.Reading)
    (ht : p.Takes true) : Waits X R n o p := by
  induction p with
  | done r => trivial
  | get cf k g ih => exact fun r => ih r (hr r) (ht r)
  | scan cf k g ih => exact fun r => ih r (hr r) (ht r)
  | readLock held g ih =>
    obtain ⟨⟨rfl, _⟩, ht⟩ := ht
    exact fun r => ih r (hr r) (ht r)
  | _ => exact hr.elim

/-- Reading calls keep no lock. -/
theorem tk_access {X : Cfg} (O : IdentOrder) (a : Access) (h : a.isRead = true) : (accessProg X O a).Takes true := by
  have map : ∀ {α : Type} {p : Prog α} (f : α → Answer), p.Takes true → (p >>= fun a => (pure (f a) : Prog Answer)).Takes true :=
    fun f h => h.bind (fun _ => trivial)
  cases a with
  | vertexCount => exact map _ (Takes.bind (tk_vertexIterate _) (fun _ => trivial))
  | allVertices => exact map _ (tk_vertexIterate _)
  | rangeVertices o => exact map _ (tk_vertexIterate _)
  | specificVertices ids => exact map _ (tk_specificVertices _)
  | vertexIdsWithProperty n => exact map _ (tk_vertexIdsWithProperty _)
  | vertexIdsWithPropertyValue n v => exact map _ (tk_vertexIdsWithPropertyValue _ _)
  | edgeCount => exact map _ (Takes.bind (tk_edgeIterateAll _) (fun _ => trivial))
  | allEdges => exact map _ (tk_edgeIterateAll _)
  | rangeEdges o => exact map _ (tk_edgeIterateRange _ _)
  | rangeReversedEdges o => exact map _ (tk_edgeIterateRange _ _)
  | specificEdges es => exact map _ (tk_specificEdges _)
  | edgesWithProperty n => exact map _ (tk_edgesWithProperty _)
  | edgesWithPropertyValue n v => exact map _ (tk_edgesWithPropertyValue _ _)
  | vertexProperty v n => exact map _ (tk_vpGet _ _)
  | vertexProperties v => exact map _ (tk_propItems (tk_vpIterate _))
  | edgeProperty e n => exact map _ (tk_epGet _ _)
  | edgeProperties e => exact map _ (tk_propItems (tk_epIterate _))
  | _ => cases h

namespace App
variable {X : Cfg} {P : Batch → Prop}
section
variable {R : Json → UInt64 → Prop} {n : Identifier} {o : Owner} {V : Json → Prop}

/-- **Every call.** -/
theorem wt_access (hE : Enters X V R) (hR : ∀ w, R w (X.H w.stream)) (O : IdentOrder) (a : Access) (hv : a.ValuesOk V) :
    Waits X R n o (accessProg X O a) := by
  cases hr : a.isRead with
  | true => exact Waits.reads (rd_access O a hr) (tk_access O a hr)
  | false => cases a with
    | lib op => exact (wt_call hE hR O op hv).map' _
    | write w => cases w with
      | deleteVertices vs =>
        exact Waits.map' (Waits.map' (wt_locked (fun _ => .forAll (fun _ => rd_vertexDelete _ _)) (fun _ => .forAll (fun _ => tk_vertexDelete _ _))
          (fun _ _ => .forAll .nil (fun _ _ => .append) (fun _ _ => if_vertexDelete _ _))) _) _
      | deleteEdges es =>
        refine Waits.map' (Waits.map' (wt_locked (fun _ => .forAll (fun e => (rd_vertexGet _).bind (fun r => ?_)))
          (fun _ => .forAll (fun e => (tk_vertexGet _).bind (fun r => ?_)))
          (fun _ _ => .forAll .nil (fun _ _ => .append) (fun e _ => (rd_vertexGet _).thenIf (fun r => ?_)))) _) _
        · cases r with
          | none => trivial
          | some t => exact rd_edgeDelete _ _
        · cases r with
          | none => trivial
          | some t => exact tk_edgeDelete _ _
        · cases r with
          | none => exact Keeps.nil
          | some t => exact if_edgeDelete _ _
      | deleteVertexProperties l =>
        exact Waits.map' (Waits.map' (wt_locked (fun _ => .forAll (fun _ => rd_vpDelete _ _ _)) (fun _ => .forAll (fun _ => tk_vpDelete _ _ _))
          (fun _ _ => .forAll .nil (fun _ _ => .append) (fun _ _ => if_vpDelete _ _ _))) _) _
      | deleteEdgeProperties l =>
        exact Waits.map' (Waits.map' (wt_locked (fun _ => .forAll (fun _ => rd_epDelete _ _ _)) (fun _ => .forAll (fun _ => tk_epDelete _ _ _))
          (fun _ _ => .forAll .nil (fun _ _ => .append) (fun _ _ => if_epDelete _ _ _))) _) _
      | sync => trivial
      | createVertex v => exact ((wt_createVertex v).map' _).map' _
      | createEdge e => exact ((wt_createEdge e).map' _).map' _
      | bulkInsert items =>
        refine Waits.map' (Waits.map' (wt_locked (fun _ => .forAll (fun _ => rd_bulkItem _ _)) (fun _ => .forAll (fun _ => tk_bulkItem _ _))
          (fun ix hi => .forAll .nil (fun _ _ => .append) (fun i hm => ?_))) _) _
        have hvi := hv i hm
        cases i with
        | vertex v => exact keeps_vertex (Or.inl ⟨_, _, rfl⟩)
        | edge e => exact if_edgeSet e
        | vertexProperty id m v => exact if_vpSet hE hi _ _ _ hvi
        | edgeProperty e m v => exact if_epSet hE hi _ _ _ hvi
      | indexProperty m =>
        rw [access_index]
        exact (wt_indexProperty hR O m).map' _
      | setVertexProperties ids m v =>
        exact Waits.map' (Waits.map' (wt_locked (fun _ => .forAll (fun _ => rd_vpSet _ _ _ _)) (fun _ => .forAll (fun _ => tk_vpSet _ _ _ _))
          (fun _ hi => .forAll .nil (fun _ _ => .append) (fun _ _ => if_vpSet hE hi _ _ _ hv))) _) _
      | setEdgeProperties es m v =>
        exact Waits.map' (Waits.map' (wt_locked (fun _ => .forAll (fun _ => rd_epSet _ _ _ _)) (fun _ => .forAll (fun _ => tk_epSet _ _ _ _))
          (fun _ hi => .forAll .nil (fun _ _ => .append) (fun _ _ => if_epSet hE hi _ _ _ hv))) _) _
    | _ => cases hr

/-- A call that does not create the owner does not put its key. -/
theorem lk_access (O : IdentOrder) (a : Access) (o : Owner) (h : ¬ a.Creates o) :
    (accessProg X O a).All (Lacks (oTable o) (oKey X o)) (fun _ => True) := by
  have hc := oTable_table o
  have map : ∀ {α β : Type} {p : Prog α} (f : α → β), p.All (Lacks (oTable o) (oKey X o)) (fun _ => True) →
      (p >>= fun a => (pure (f a) : Prog β)).All (Lacks (oTable o) (oKey X o)) (fun _ => True) :=
    fun f h => h.bind (fun _ _ => trivial)
  cases hr : a.isRead with
  | true => exact Quiet.of_reading (rd_access O a hr) _
  | false => cases a with
    | lib op => exact map _ (lk_call O op o h)
    | write w =>
      have unmap : ∀ {α β γ : Type} {p : Prog α} (f : α → β) (g : α → γ), (p >>= fun a => (pure (f a) : Prog β)).All (Lacks (oTable o) (oKey X o)) (fun _ => True) →
          (p >>= fun a => (pure (g a) : Prog γ)).All (Lacks (oTable o) (oKey X o)) (fun _ => True) := by
        intro α β γ p f g hp
        refine map g ?_
        replace hp : (p.bind (fun a => (pure (f a) : Prog β))).All (Lacks (oTable o) (oKey X o)) (fun _ => True) := hp
        induction p with
        | done r => cases r <;> trivial
        | get cf k n ih => exact fun r => ih r (hp r)
        | scan cf k n ih => exact fun r => ih r (hp r)
        | write b n ih => exact ⟨hp.1, ih () hp.2⟩
        | readLock _ n ih => exact fun r => ih r (hp r)
        | writeLock n ih => exact fun r => ih r (hp r)
        | setIndexed x n ih => exact ih () hp
      cases w with
      | deleteVertices vs => exact map _ (map _ (lk_locked (fun _ => .forAll .nil (fun _ _ => .append) (fun _ _ => lk_vertexDelete _ _))))
      | deleteEdges es =>
        refine map _ (map _ (lk_locked (fun ix => .forAll .nil (fun _ _ => .append) (fun e _ => ?_))))
        refine (quiet_vertexGet _).then (fun r => ?_)
        cases r with
        | none => exact Lacks.nil
        | some t => exact lk_edgeDelete _ _
      | deleteVertexProperties l => exact map _ (map _ (lk_locked (fun _ => .forAll .nil (fun _ _ => .append) (fun _ _ => lk_vpDelete _ _ _))))
      | deleteEdgeProperties l => exact map _ (map _ (lk_locked (fun _ => .forAll .nil (fun _ _ => .append) (fun _ _ => lk_epDelete _ _ _))))
      | sync => trivial
      | createVertex v => exact map _ (unmap Reply.bool _ (lk_call O (.createVertex v) o (by cases o <;> exact h)))
      | createEdge e => exact map _ (unmap Reply.bool _ (lk_call O (.createEdge e) o (by cases o <;> exact h)))
      | bulkInsert l => exact map _ (unmap (fun _ => Reply.unit) _ (lk_call O (.bulkInsert l) o (by cases o <;> exact h)))
      | indexProperty m => exact map _ (map _ (lk_indexProperty hc O m))
      | setVertexProperties ids m v => exact map _ (map _ (lk_locked (fun _ => .forAll .nil (fun _ _ => .append) (fun _ _ => lk_vpSet hc _ _ _ _))))
      | setEdgeProperties ids m v => exact map _ (map _ (lk_locked (fun _ => .forAll .nil (fun _ _ => .append) (fun _ _ => lk_epSet hc _ _ _ _))))
    | _ => cases hr

/-! ### Executions -/

/-- What is known of every call. -/
structure PhaseInv (X : Cfg) (R : Json → UInt64 → Prop) (n : Identifier) (o : Owner) (S : App) : Prop where
  excl : ∀ c, S.writer = some c → S.readers = []
  writer : ∀ c a p k, S.tasks c = .inside a p k → S.writer = some c → Holds X R n o true S.db.indexed p
  reader : ∀ c a p k, S.tasks c = .inside a p k → S.writer ≠ some c → c ∈ S.readers → Holds X R n o false S.db.indexed p
  waits : ∀ c a p k, S.tasks c = .inside a p k → S.writer ≠ some c → c ∉ S.readers → Waits X R n o p
  lacks : ∀ c a p k, S.tasks c = .inside a p k → ¬ a.Creates o → p.All (Lacks (oTable o) (oKey X o)) (fun _ => True)

/-- A step of `c` in which neither locks nor the set of names change. -/
theorem PhaseInv.silent {S S' : App} (H : PhaseInv X R n o S) {c : Nat} {a : Access} {p p' : Prog Answer}
    {k : Except Error Answer → Task}
    (hc : S.tasks c = .inside a p k) (h1 : S'.tasks = setAt S.tasks c (.inside a p' k)) (h2 : S'.writer = S.writer)
    (h3 : S'.readers = S.readers) (h4 : S'.db.indexed = S.db.indexed)
    (hh : ∀ wr, Holds X R n o wr S.db.indexed p → Holds X R n o wr S.db.indexed p')
    (hw : c ∉ S.readers → S.writer ≠ some c → Waits X R n o p → Waits X R n o p')
    (hl : p.All (Lacks (oTable o) (oKey X o)) (fun _ => True) → p'.All (Lacks (oTable o) (oKey X o)) (fun _ => True)) :
    PhaseInv X R n o S' := by
  refine ⟨by rw [h2, h3]; exact H.excl, ?_, ?_, ?_, ?_⟩
  · intro i b q j hi hi'
    rw [h1] at hi; rw [h2] at hi'; rw [h4]
    rcases setAt_eq hi with ⟨e, hq⟩ | ⟨_, hq⟩
    · cases hq; subst e; exact hh _ (H.writer _ _ _ _ hc hi')
    · exact H.writer i b q j hq hi'
  · intro i b q j hi hi' hr
    rw [h1] at hi; rw [h2] at hi'; rw [h3] at hr; rw [h4]
    rcases setAt_eq hi with ⟨e, hq⟩ | ⟨_, hq⟩
    · cases hq; subst e; exact hh _ (H.reader _ _ _ _ hc hi' hr)
    · exact H.reader i b q j hq hi' hr
  · intro i b q j hi hi' hr
    rw [h1] at hi; rw [h2] at hi'; rw [h3] at hr
    rcases setAt_eq hi with ⟨e, hq⟩ | ⟨_, hq⟩
    · cases hq; subst e; exact hw hr hi' (H.waits _ _ _ _ hc hi' hr)
    · exact H.waits i b q j hq hi' hr
  · intro i b q j hi hnc
    rw [h1] at hi
    rcases setAt_eq hi with ⟨e, hq⟩ | ⟨_, hq⟩
    · cases hq; subst e; exact hl (H.lacks _ _ _ _ hc hnc)
    · exact H.lacks i b q j hq hnc

/-- A task outside a call makes a step to a place outside a call. -/
theorem PhaseInv.outside {S S' : App} (H : PhaseInv X R n o S) {c : Nat} {t : TaskAt}
    (ht : ∀ a p k, t ≠ .inside a p k) (h1 : S'.tasks = setAt S.tasks c t) (h2 : S'.writer = S.writer)
    (h3 : S'.readers = S.readers) (h4 : S'.db = S.db) : PhaseInv X R n o S' := by
  have old : ∀ i a p k, S'.tasks i = .inside a p k → S.tasks i = .inside a p k := by
    intro i a p k hi
    rw [h1] at hi
    rcases setAt_eq hi with ⟨_, hq⟩ | ⟨_, hq⟩
    · exact absurd hq (ht _ _ _)
    · exact hq
  exact ⟨by rw [h2, h3]; exact H.excl, fun i a p k hi => by rw [h2, h4]; exact H.writer i a p k (old _ _ _ _ hi),
    fun i a p k hi => by rw [h2, h3, h4]; exact H.reader i a p k (old _ _ _ _ hi),
    fun i a p k hi => by rw [h2, h3]; exact H.waits i a p k (old _ _ _ _ hi), fun i a p k hi => H.lacks i a p k (old _ _ _ _ hi)⟩

theorem PhaseInv.step (hE : Enters X V R) (hR : ∀ w, R w (X.H w.stream)) {e : List AppEv} {S S' : App}
    (H : PhaseInv X R n o S) (L : LockInv S) (ho : OkEnters (Access.ValuesOk V) e) (hs : Step X false S e S') :
    PhaseInv X R n o S' := by
  cases hs with
  | start c t _ => exact H.outside (fun _ _ _ h => by cases h) rfl rfl rfl rfl
  | stop c t _ _ => exact H.outside (fun _ _ _ h => by cases h) rfl rfl rfl rfl
  | getFails _ _ _ _ _ _ hi => cases hi
  | scanFails _ _ _ _ _ _ _ hi => cases hi
  | writeFails _ _ _ _ _ hi => cases hi
  | flushFails _ _ _ hi => cases hi
  | enter c O a k hc =>
    obtain ⟨hw, hr⟩ := L.free (c := c) (fun a p k h => by rw [hc] at h; cases h)
    refine ⟨H.excl, ?_, ?_, ?_, ?_⟩
    · intro i b q j hi hi'
      rcases setAt_eq hi with ⟨e, _⟩ | ⟨_, hq⟩
      · subst e; exact absurd hi' hw
      · exact H.writer i b q j hq hi'
    · intro i b q j hi hi' hr'
      rcases setAt_eq hi with ⟨e, _⟩ | ⟨_, hq⟩
      · subst e; exact absurd hr' hr
      · exact H.reader i b q j hq hi' hr'
    · intro i b q j hi hi' hr'
      rcases setAt_eq hi with ⟨e, hq⟩ | ⟨_, hq⟩
      · cases hq; exact wt_access hE hR O a (ho c a (by simp))
      · exact H.waits i b q j hq hi' hr'
    · intro i b q j hi hnc
      rcases setAt_eq hi with ⟨e, hq⟩ | ⟨hne, hq⟩
      · cases hq; exact lk_access O a o hnc
      · exact H.lacks i b q j hq hnc
  | get c a k cf b f hc => exact H.silent hc rfl rfl rfl rfl (fun _ h => h _) (fun _ _ h => h _) (fun h => h _)
  | scan c a k cf lo f hc => exact H.silent hc rfl rfl rfl rfl (fun _ h => h _) (fun _ _ h => h _) (fun h => h _)
  | write c a k b f hc => exact H.silent (p' := f ()) hc rfl rfl rfl rfl (fun _ h => h.2) (fun _ _ h => h.2) (fun h => h.2)
  | readLock c a k held f hc hw =>
    cases held with
    | false => exact H.silent hc rfl rfl rfl rfl (fun _ h => h.elim) (fun _ _ h => h _) (fun h => h _)
    | true =>
      have nw : ∀ i, S.writer ≠ some i := fun i => by rw [hw]; simp
      have hcr : c ∉ S.readers := fun hr => (H.reader c _ _ _ hc (nw c) hr).elim
      refine ⟨fun i hi => absurd hi (nw i), fun i b q j _ hi => absurd hi (nw i), ?_, ?_, ?_⟩
      · intro i b q j hi hi' hr
        rcases setAt_eq hi with ⟨e, hq⟩ | ⟨hne, hq⟩
        · cases hq; exact H.waits c _ _ _ hc (nw c) hcr _
        · rcases List.mem_cons.1 hr with h | h
          · exact absurd h hne
          · exact H.reader i b q j hq (nw i) h
      · intro i b q j hi hi' hr
        rcases setAt_eq hi with ⟨e, hq⟩ | ⟨hne, hq⟩
        · subst e; exact absurd List.mem_cons_self hr
        · exact H.waits i b q j hq (nw i) (fun h => hr (List.mem_cons_of_mem _ h))
      · intro i b q j hi hnc
        rcases setAt_eq hi with ⟨e, hq⟩ | ⟨hne, hq⟩
        · cases hq; subst e; exact H.lacks _ _ _ _ hc hnc _
        · exact H.lacks i b q j hq hnc
  | writeLock c a k f hc hw hr =>
    have nw : ∀ i, S.writer ≠ some i := fun i => by rw [hw]; simp
    have nr : ∀ i, i ∉ S.readers := fun i => by rw [hr]; simp
    refine ⟨fun i _ => hr, ?_, fun i b q j _ _ h => absurd h (nr i), ?_, ?_⟩
    · intro i b q j hi hi'
      rcases setAt_eq hi with ⟨e, hq⟩ | ⟨hne, hq⟩
      · cases hq; exact H.waits c _ _ _ hc (nw c) (nr c) _
      · cases hi'; exact absurd rfl hne
    · intro i b q j hi hi' _
      rcases setAt_eq hi with ⟨e, hq⟩ | ⟨hne, hq⟩
      · subst e; exact absurd rfl hi'
      · exact H.waits i b q j hq (nw i) (nr i)
    · intro i b q j hi hnc
      rcases setAt_eq hi with ⟨e, hq⟩ | ⟨hne, hq⟩
      · cases hq; subst e; exact H.lacks _ _ _ _ hc hnc _
      · exact H.lacks i b q j hq hnc
  | setIndexed c a k ix f hc =>
    have hw : S.writer = some c := by
      by_cases hw : S.writer = some c
      · exact hw
      · by_cases hr : c ∈ S.readers
        · have h := H.reader c _ _ _ hc hw hr; cases h.1
        · exact (H.waits c _ _ _ hc hw hr).elim
    have hh := H.writer c _ _ _ hc hw
    have nr := H.excl c hw
    refine ⟨H.excl, ?_, fun i b q j _ _ h => ?_, ?_, ?_⟩
    · intro i b q j hi hi'
      rcases setAt_eq hi with ⟨e, hq⟩ | ⟨hne, hq⟩
      · cases hq; exact hh.2.2.2
      · have hi' : S.writer = some i := hi'
        rw [hw] at hi'; cases hi'; exact absurd rfl hne
    · have h : i ∈ S.readers := h
      rw [nr] at h; cases h
    · intro i b q j hi hi' hr
      rcases setAt_eq hi with ⟨e, hq⟩ | ⟨hne, hq⟩
      · subst e; exact absurd hw hi'
      · exact H.waits i b q j hq hi' hr
    · intro i b q j hi hnc
      rcases setAt_eq hi with ⟨e, hq⟩ | ⟨hne, hq⟩
      · cases hq; subst e; have := H.lacks _ _ _ _ hc hnc; exact this
      · exact H.lacks i b q j hq hnc
  | unlock c a k r hc hw =>
    have nr := H.excl c hw
    refine ⟨(fun i h => by cases h), (fun i b q j _ h => by cases h), fun i b q j _ _ h => ?_, ?_, H.lacks⟩
    · have h : i ∈ S.readers := h
      rw [nr] at h; cases h
    · intro i b q j hi _ hr
      by_cases hic : i = c
      · subst hic
        have hi : S.tasks i = .inside b q j := hi
        rw [hc] at hi; cases hi; trivial
      · exact H.waits i b q j hi (by rw [hw]; intro e; cases e; exact hic rfl) hr
  | unlockRead c a k r hc hr =>
    refine ⟨fun i hi => ?_, H.writer, ?_, ?_, H.lacks⟩
    · show S.readers.filter _ = []
      rw [H.excl i hi]; rfl
    · intro i b q j hi hi' hr'
      exact H.reader i b q j hi hi' (List.mem_filter.1 hr').1
    · intro i b q j hi hi' hr'
      by_cases hic : i = c
      · subst hic
        have hi : S.tasks i = .inside b q j := hi
        rw [hc] at hi; cases hi; trivial
      · exact H.waits i b q j hi hi' (fun h => hr' (List.mem_filter.2 ⟨h, by simpa using hic⟩))
  | leave c a k r hc hw hr => exact H.outside (after_outside k r) rfl rfl rfl rfl

theorem PhaseInv.exec (hE : Enters X V R) (hR : ∀ w, R w (X.H w.stream)) {s : Rocks} {h : List AppEv} {S : App}
    (hx : Exec X false s h S) (ho : OkEnters (Access.ValuesOk V) h) : PhaseInv X R n o S := by
  induction hx with
  | nil => exact ⟨(fun c h => by cases h), (fun c _ p _ h => by cases h), (fun c _ p _ h => by cases h), (fun c _ p _ h => by cases h),
      (fun c _ p _ h => by cases h)⟩
  | snoc hx hs ih => exact (ih ho.left).step hE hR (LockInv.exec hx) ho.right hs

/-! ### From the moment on at which the owner is no longer created -/

/-- A call is entering the owner. -/
def Filling (X : Cfg) (R : Json → UInt64 → Prop) (n : Identifier) (o : Owner) (S : App) : Prop :=
  ∃ c a p k b w, S.writer = some c ∧ S.tasks c = .inside a p k ∧ X.codec.dec b = some w ∧ Good X n o b S.db.kv ∧ Fills X R n o b w p

structure FillInv (X : Cfg) (R : Json → UInt64 → Prop) (n : Identifier) (o : Owner) (h : List AppEv) (S : App) : Prop where
  lacks : ∀ c a p k, S.tasks c = .inside a p k → p.All (Lacks (oTable o) (oKey X o)) (fun _ => True)
  main : Has n S.db.indexed → Sound' X R n o S.db ∨ Filling X R n o S
  fin : ∀ c a p k, S.tasks c = .inside a p k → a.Indexes n → S.writer ≠ some c →
    (∃ f, p = .writeLock f) ∨ ∃ r, p = .done r ∧ ∀ x, r = .ok x → Sound' X R n o S.db
  leaves : IndexedBy h n → Sound' X R n o S.db

/-- A step of `c` that leaves locks and database alone. -/
theorem FillInv.silent {h : List AppEv} {S S' : App} (H : FillInv X R n o h S) {c : Nat} {a : Access} {p p' : Prog Answer}
    {k : Except Error Answer → Task}
    (hc : S.tasks c = .inside a p k) (h1 : S'.tasks = setAt S.tasks c (.inside a p' k)) (h2 : S'.writer = S.writer)
    (h4 : S'.db = S.db) (hp : (∀ f, p ≠ .writeLock f) ∧ ∀ r, p ≠ .done r)
    (hf : ∀ b w, Good X n o b S.db.kv → Fills X R n o b w p → Fills X R n o b w p')
    (hl : p.All (Lacks (oTable o) (oKey X o)) (fun _ => True) → p'.All (Lacks (oTable o) (oKey X o)) (fun _ => True)) :
    FillInv X R n o (h ++ []) S' := by
  rw [List.append_nil]
  refine ⟨?_, ?_, ?_, by rw [h4]; exact H.leaves⟩
  · intro i b q j hi
    rw [h1] at hi
    rcases setAt_eq hi with ⟨e, hq⟩ | ⟨_, hq⟩
    · cases hq; exact hl (H.lacks _ _ _ _ hc)
    · exact H.lacks i b q j hq
  · intro hn
    rw [h4] at hn ⊢
    rcases H.main hn with hm | ⟨d, a', q, j, b, w, hw, hq, hd, hg, hfl⟩
    · exact Or.inl hm
    · refine Or.inr ?_
      by_cases hdc : d = c
      · subst hdc
        rw [hc] at hq; cases hq
        exact ⟨d, _, p', _, b, w, h2.trans hw, by rw [h1]; exact setAt_self _ _ _, hd, by rw [h4]; exact hg, hf b w hg hfl⟩
      · exact ⟨d, _, q, _, b, w, h2.trans hw, by rw [h1, setAt_ne _ _ hdc]; exact hq, hd, by rw [h4]; exact hg, hfl⟩
  · intro i b q j hi hix hw
    rw [h1] at hi; rw [h2] at hw; rw [h4]
    rcases setAt_eq hi with ⟨e, hq⟩ | ⟨_, hq⟩
    · subst e
      cases hq
      rcases H.fin _ _ _ _ hc hix hw with ⟨f, rfl⟩ | ⟨r, rfl, _⟩
      · exact absurd rfl (hp.1 f)
      · exact absurd rfl (hp.2 r)
    · exact H.fin i b q j hq hix hw

/-- A task outside a call makes a step. -/
theorem FillInv.outside {h e : List AppEv} {S S' : App} (H : FillInv X R n o h S) {c : Nat} {t : TaskAt}
    (h1 : S'.tasks = setAt S.tasks c t) (h2 : S'.writer = S.writer) (h4 : S'.db = S.db) (hw : S.writer ≠ some c)
    (ht : ∀ a p k, t = .inside a p k → p.All (Lacks (oTable o) (oKey X o)) (fun _ => True) ∧ (a.Indexes n → ∃ f, p = .writeLock f))
    (hl : ∀ c a x, AppEv.leave c a (.ok x) ∈ e → a.Indexes n → Sound' X R n o S.db) : FillInv X R n o (h ++ e) S' := by
  refine ⟨?_, ?_, ?_, ?_⟩
  · intro i b q j hi
    rw [h1] at hi
    rcases setAt_eq hi with ⟨_, hq⟩ | ⟨_, hq⟩
    · exact (ht _ _ _ hq).1
    · exact H.lacks i b q j hq
  · intro hn
    rw [h4] at hn ⊢
    rcases H.main hn with hm | ⟨d, a, q, j, b, w, hwd, hq, hd, hg, hfl⟩
    · exact Or.inl hm
    · have hdc : d ≠ c := by rintro rfl; exact hw hwd
      exact Or.inr ⟨d, a, q, j, b, w, h2.trans hwd, by rw [h1, setAt_ne _ _ hdc]; exact hq, hd, by rw [h4]; exact hg, hfl⟩
  · intro i b q j hi hix hwi
    rw [h1] at hi; rw [h2] at hwi; rw [h4]
    rcases setAt_eq hi with ⟨_, hq⟩ | ⟨_, hq⟩
    · exact .inl ((ht _ _ _ hq).2 hix)
    · exact H.fin i b q j hq hix hwi
  · rw [h4]
    rintro ⟨i, b, x, hm, hb⟩
    rcases List.mem_append.1 hm with hm | hm
    · exact H.leaves ⟨i, b, x, hm, hb⟩
    · exact hl i b x hm hb

theorem index_writeLock (O : IdentOrder) (a : Access) (h : a.Indexes n) : ∃ f, accessProg X O a = .writeLock f := by
  cases a with
  | lib op =>
    have h : op = .indexProperty n := h
    subst h
    exact ⟨_, rfl⟩
  | write w =>
    have h : w = .indexProperty n := h
    subst h
    exact ⟨_, rfl⟩
  | _ => exact h.elim

theorem FillInv.step {s : Rocks} {g h e : List AppEv} {S S' : App} (H : FillInv X R n o h S) (I : PhaseInv X R n o S)
    (N : NamesInv s g S) (L : LockInv S) (W : Sound X (CanRead X) S.db.kv) (W' : Sound X (CanRead X) S'.db.kv)
    (hcr : ∀ c a, AppEv.enter c a ∈ e → ¬ a.Creates o) (hs : Step X false S e S') : FillInv X R n o (h ++ e) S' := by
  cases hs with
  | getFails _ _ _ _ _ _ hi => cases hi
  | scanFails _ _ _ _ _ _ _ hi => cases hi
  | writeFails _ _ _ _ _ hi => cases hi
  | flushFails _ _ _ hi => cases hi
  | start c t hc =>
    obtain ⟨hw, _⟩ := L.free (c := c) (fun a p k h => by rw [hc] at h; cases h)
    exact H.outside rfl rfl rfl hw (fun _ _ _ h => nomatch h) (fun _ _ _ h => by simp at h)
  | stop c t hc _ =>
    obtain ⟨hw, _⟩ := L.free (c := c) (fun a p k h => by rw [hc] at h; cases h)
    exact H.outside rfl rfl rfl hw (fun _ _ _ h => nomatch h) (fun _ _ _ h => by simp at h)
  | enter c O a k hc =>
    obtain ⟨hw, _⟩ := L.free (c := c) (fun a p k h => by rw [hc] at h; cases h)
    refine H.outside rfl rfl rfl hw (fun b p j h => ?_) (fun _ _ _ h => by simp at h)
    cases h
    exact ⟨lk_access O a o (hcr c a (by simp)), index_writeLock O a⟩
  | get c a k cf b f hc => exact H.silent hc rfl rfl rfl ⟨by simp, by simp⟩ (fun b w hg hf => hf _ hg) (fun h => h _)
  | scan c a k cf lo f hc => exact H.silent hc rfl rfl rfl ⟨by simp, by simp⟩ (fun b w hg hf => hf _ hg) (fun h => h _)
  | readLock c a k held f hc hw => exact H.silent hc rfl rfl rfl ⟨by simp, by simp⟩ (fun b w hg hf => hf.elim) (fun h => h _)
  | write c a k b f hc =>
    rw [List.append_nil]
    have hlk : Lacks (oTable o) (oKey X o) b := (H.lacks c _ _ _ hc).1
    have back : Alive X o (S.db.kv.write b) → Alive X o S.db.kv := by
      intro ha
      unfold Alive at *
      cases hb : (S.db.kv (oTable o)).contains (oKey X o) with
      | true => rfl
      | false => rw [hlk.missing hb] at ha; cases ha
    have sound : Sound' X R n o S.db → Sound' X R n o { S.db with kv := S.db.kv.write b } := by
      rintro ⟨hn, hs⟩
      refine ⟨hn, fun ha => ?_⟩
      have ent := hs (back ha)
      by_cases hw : S.writer = some c
      · exact ((I.writer c _ _ _ hc hw).1 hn).entered ent
      · by_cases hr : c ∈ S.readers
        · exact ((I.reader c _ _ _ hc hw hr).1 hn).entered ent
        · exact (I.waits c _ _ _ hc hw hr).1.entered ent
    refine ⟨?_, ?_, ?_, fun hm => sound (H.leaves hm)⟩
    · intro i b q j hi
      rcases setAt_eq hi with ⟨e, hq⟩ | ⟨_, hq⟩
      · cases hq; exact (H.lacks _ _ _ _ hc).2
      · exact H.lacks i b q j hq
    · intro hn
      rcases H.main hn with hm | ⟨d, a', q, j, b', w, hwd, hq, hd, hg, hfl⟩
      · exact Or.inl (sound hm)
      · by_cases hdc : d = c
        · subst hdc
          rw [hc] at hq; cases hq
          obtain ⟨h1, u, x, hr, hu⟩ := hfl
          refine Or.inl ⟨hn, fun _ => ?_⟩
          intro y w' hy hw'
          have hy : ((S.db.kv.write b) (pTable o)).get (pKey X n o) = some y := hy
          rw [KV.write_get, h1] at hy
          have hy : (S.db.kv (pTable o)).get (pKey X n o) = some y := hy
          rw [hg.prop] at hy
          cases hy
          rw [hd] at hw'
          cases hw'
          exact ⟨u, hr, by show ((S.db.kv.write b) _).contains _ = true; rw [contains_write, hu]; rfl⟩
        · have hwc : S.writer ≠ some c := by rw [hwd]; intro e; cases e; exact hdc rfl
          have hr : c ∉ S.readers := by rw [I.excl d hwd]; simp
          have hfree := (I.waits c _ _ _ hc hwc hr).1
          refine Or.inr ⟨d, a', q, j, b', w, hwd, by show setAt _ _ _ _ = _; rw [setAt_ne _ _ hdc]; exact hq, hd, ⟨W'.wf, W'.values,
            hfree.alive' hg.alive, ?_⟩, hfl⟩
          show ((S.db.kv.write b) _).get _ = _
          rw [KV.write_get, hfree.prop]; exact hg.prop
    · intro i b' q j hi hix hwi
      rcases setAt_eq hi with ⟨e, hq⟩ | ⟨_, hq⟩
      · subst e
        cases hq
        rcases H.fin _ _ _ _ hc hix hwi with ⟨f, hf⟩ | ⟨r, hf, _⟩ <;> cases hf
      · rcases H.fin i _ q _ hq hix hwi with hf | ⟨r, hf, hs⟩
        · exact Or.inl hf
        · exact Or.inr ⟨r, hf, fun a ha => sound (hs a ha)⟩
  | writeLock c a k f hc hw hr =>
    rw [List.append_nil]
    refine ⟨?_, ?_, ?_, H.leaves⟩
    · intro i b q j hi
      rcases setAt_eq hi with ⟨e, hq⟩ | ⟨_, hq⟩
      · cases hq; exact H.lacks _ _ _ _ hc _
      · exact H.lacks i b q j hq
    · intro hn
      rcases H.main hn with hm | ⟨d, a', q, j, b', w, hwd, _⟩
      · exact Or.inl hm
      · rw [hw] at hwd; cases hwd
    · intro i b q j hi hix hwi
      rcases setAt_eq hi with ⟨e, hq⟩ | ⟨_, hq⟩
      · subst e; exact absurd rfl hwi
      · exact H.fin i b q j hq hix (by rw [hw]; simp)
  | setIndexed c a k ix f hc =>
    rw [List.append_nil]
    have hw : S.writer = some c := by
      by_cases hw : S.writer = some c
      · exact hw
      · by_cases hr : c ∈ S.readers
        · have h := I.reader c _ _ _ hc hw hr; cases h.1
        · exact (I.waits c _ _ _ hc hw hr).elim
    obtain ⟨_, hkeep, hfill, _⟩ := I.writer c _ _ _ hc hw
    have sound : Sound' X R n o S.db → Sound' X R n o { S.db with indexed := ix } := fun ⟨h1, h2⟩ => ⟨hkeep h1, h2⟩
    refine ⟨?_, ?_, ?_, fun hm => sound (H.leaves hm)⟩
    · intro i b q j hi
      rcases setAt_eq hi with ⟨e, hq⟩ | ⟨_, hq⟩
      · cases hq; have := H.lacks _ _ _ _ hc; exact this
      · exact H.lacks i b q j hq
    · intro hn
      by_cases hold : Has n S.db.indexed
      · rcases H.main hold with hm | ⟨d, a', q, j, b', w, hwd, hq, _, _, hfl⟩
        · exact Or.inl (sound hm)
        · rw [hw] at hwd; cases hwd
          rw [hc] at hq; cases hq
          exact hfl.elim
      · by_cases hex : Alive X o S.db.kv ∧ ∃ b w, (S.db.kv (pTable o)).get (pKey X n o) = some b ∧ X.codec.dec b = some w
        · obtain ⟨ha, b, w, hb, hd⟩ := hex
          exact Or.inr ⟨c, a, f (), k, b, w, hw, setAt_self _ _ _, hd, ⟨W.wf, W.values, ha, hb⟩, hfill hold hn b w hd⟩
        · refine Or.inl ⟨hn, fun ha b w hb hd => ?_⟩
          exact absurd ⟨ha, b, w, hb, hd⟩ hex
    · intro i b q j hi hix hwi
      rcases setAt_eq hi with ⟨e, hq⟩ | ⟨_, hq⟩
      · subst e; exact absurd hw hwi
      · rcases H.fin i b q j hq hix hwi with hf | ⟨r, hf, hs⟩
        · exact Or.inl hf
        · exact Or.inr ⟨r, hf, fun a ha => sound (hs a ha)⟩
  | unlock c a k r hc hw =>
    rw [List.append_nil]
    have sound : Has n S.db.indexed → Sound' X R n o S.db := by
      intro hn
      rcases H.main hn with hm | ⟨d, a', q, j, b', w, hwd, hq, _, _, hfl⟩
      · exact hm
      · rw [hw] at hwd; cases hwd
        rw [hc] at hq; cases hq
        exact hfl.elim
    refine ⟨H.lacks, fun hn => Or.inl (sound hn), ?_, H.leaves⟩
    intro i b q j hi hix _
    by_cases hic : i = c
    · subst hic
      have hi : S.tasks i = .inside b q j := hi
      rw [hc] at hi; cases hi
      refine Or.inr ⟨r, rfl, fun x hx => sound ?_⟩
      exact (N.inside _ _ _ _ hc).2 n x hix hx
    · exact H.fin i b q j hi hix (by rw [hw]; intro e; cases e; exact hic rfl)
  | unlockRead c a k r hc hr =>
    rw [List.append_nil]
    exact ⟨H.lacks, H.main, H.fin, H.leaves⟩
  | leave c a k r hc hw hr =>
    refine H.outside rfl rfl rfl hw (fun _ _ _ h => absurd h (after_outside k r _ _ _)) (fun i b x hm hb => ?_)
    simp only [List.mem_singleton, AppEv.leave.injEq] at hm
    obtain ⟨rfl, rfl, rfl⟩ := hm
    rcases H.fin _ _ _ _ hc hb hw with ⟨f, hf⟩ | ⟨r', hf, hs⟩
    · cases hf
    · cases hf; exact hs x rfl

/-- **Once `index_property` has returned success, an owner that no call has created since before it was called is entered.** -/
theorem FillInv.from (hE : Enters X V R) (hR : ∀ w, R w (X.H w.stream)) (hc : ∀ x, V x → CanRead X x) {s : Rocks}
    (hw : Sound X (CanRead X) s.kv) {h1 h2 : List AppEv} {A S : App} (hx : Exec X false s h1 A) (hf : From X false A h2 S)
    (ho : OkEnters (Access.ValuesOk V) (h1 ++ h2)) (hn : ¬ Has n s.indexed)
    (hni : ∀ c a, AppEv.enter c a ∈ h1 → ¬ a.Indexes n)
    (hcr : ∀ c a p k, A.tasks c = .inside a p k → ¬ a.Creates o)
    (hcr2 : ∀ c a, AppEv.enter c a ∈ h2 → ¬ a.Creates o) : FillInv X R n o h2 S := by
  have N1 := NamesInv.exec hx
  have ok : ∀ {h : List AppEv}, OkEnters (Access.ValuesOk V) h → OkEnters (Access.ValuesOk (CanRead X)) h :=
    fun h => h.mono (Access.ValuesOk.mono hc)
  induction hf with
  | nil =>
    have P1 := PhaseInv.exec (n := n) (o := o) hE hR hx ho.left
    refine ⟨fun c a p k hp => P1.lacks c a p k hp (hcr c a p k hp), fun h => ?_, fun c a p k hp hix => ?_, fun ⟨_, _, _, h, _⟩ => (nomatch h)⟩
    · rcases N1.upper n h with h | ⟨c, a, hc, ha⟩
      · exact absurd h hn
      · exact absurd ha (hni c a hc)
    · exact absurd hix (hni c a (N1.inside c a p k hp).1)
  | @snoc g e T T' xs hs ih =>
    have sub : OkEnters (Access.ValuesOk V) (h1 ++ g) := by
      rw [← List.append_assoc] at ho
      exact ho.left
    have G := ih sub (fun c a hm => hcr2 c a (List.mem_append_left _ hm))
    have E := xs.exec hx
    have E' := E.snoc hs
    rw [List.append_assoc] at E'
    exact G.step (PhaseInv.exec hE hR E sub) (NamesInv.exec E) (LockInv.exec E)
      (laxRules.exec hw E (ok sub)).db (laxRules.exec hw E' (ok ho)).db
      (fun c a hm => hcr2 c a (List.mem_append_right _ hm)) hs

end
end App
end Rocks
end IndraDB
