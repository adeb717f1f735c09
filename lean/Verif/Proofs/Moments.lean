import Verif.Spec.Moments
import Verif.Proofs.RocksComplete
import Verif.Proofs.RocksHistory
import Verif.Proofs.RocksMeta
/-
Queries that overlap other calls: every read sees the database at some moment.
-/
set_option linter.unusedSimpArgs false
namespace IndraDB

theorem Gathers.mono {α β : Type} {P Q : α → List β → Prop} {as : List α} {l : List β} (h : Gathers P as l)
    (hp : ∀ a ∈ as, ∀ l, P a l → Q a l) : Gathers Q as l := by
  induction h with
  | nil => exact .nil
  | cons h1 h2 ih => exact .cons (hp _ (by simp) _ h1) (ih (fun a ha => hp a (by simp [ha])))

/-- There is always something gathered, if there is for every element. -/
theorem Gathers.exist {α β : Type} {P : α → List β → Prop} (h : ∀ a, ∃ l, P a l) (as : List α) : ∃ l, Gathers P as l := by
  induction as with
  | nil => exact ⟨[], .nil⟩
  | cons a as ih =>
    obtain ⟨l, hl⟩ := h a
    obtain ⟨ls, hls⟩ := ih
    exact ⟨_, .cons hl hls⟩

theorem Gathers.mem {α β : Type} {P : α → List β → Prop} {as : List α} {l : List β} (h : Gathers P as l) {b : β} (hb : b ∈ l) :
    ∃ a ∈ as, ∃ l', P a l' ∧ b ∈ l' := by
  induction h with
  | nil => simp at hb
  | @cons a as l ls h1 h2 ih =>
    rcases List.mem_append.1 hb with hb | hb
    · exact ⟨_, by simp, _, h1, hb⟩
    · obtain ⟨a', ha', x⟩ := ih hb
      exact ⟨a', by simp [ha'], x⟩

namespace Prog
variable {α β : Type}

/-- If the program only reads, and every read sees a state in `M`, its successful outcome satisfies `P`. -/
def Saw (M : Rocks → Prop) (P : α → Prop) : Prog α → Prop
  | .done (.ok a) => P a
  | .done (.error _) => True
  | .get cf k n => ∀ s, M s → (n ((s.kv cf).get k)).Saw M P
  | .scan cf lo n => ∀ s, M s → (n (((s.kv cf).rangeFrom lo).map .ok)).Saw M P
  | .readLock _ n => ∀ s, M s → (n s.indexed).Saw M P
  | .write _ _ => False
  | .writeLock _ => False
  | .setIndexed _ _ => False

variable {M : Rocks → Prop} {P : α → Prop} {Q : β → Prop}

theorem Saw.bind {p : Prog α} {f : α → Prog β} (h : p.Saw M P) (hf : ∀ a, P a → (f a).Saw M Q) : (p >>= f).Saw M Q := by
  show (p.bind f).Saw M Q
  induction p with
  | done r => cases r with
    | ok a => exact hf a h
    | error e => trivial
  | get cf k n ih => exact fun s hs => ih _ (h s hs)
  | scan cf k n ih => exact fun s hs => ih _ (h s hs)
  | write b n ih => exact h.elim
  | readLock _ n ih => exact fun s hs => ih _ (h s hs)
  | writeLock n ih => exact h.elim
  | setIndexed ix n ih => exact h.elim

theorem Saw.mono {p : Prog α} {P' : α → Prop} (h : p.Saw M P) (hp : ∀ a, P a → P' a) : p.Saw M P' := by
  induction p with
  | done r => cases r with
    | ok a => exact hp a h
    | error e => trivial
  | get cf k n ih => exact fun s hs => ih _ (h s hs)
  | scan cf k n ih => exact fun s hs => ih _ (h s hs)
  | write b n ih => exact h.elim
  | readLock _ n ih => exact fun s hs => ih _ (h s hs)
  | writeLock n ih => exact h.elim
  | setIndexed ix n ih => exact h.elim

theorem Saw.pure {a : α} (h : P a) : (Pure.pure a : Prog α).Saw M P := h

theorem Saw.lift {r : Res α} (h : ∀ a, r = .ok a → P a) : (Prog.lift r).Saw M P := by
  cases r with
  | ok a => exact h a rfl
  | error e => trivial

/-- A program that makes one read and ends sees one state. -/
theorem Saw.get {cf : CF} {k : Bytes} {n : Option Bytes → Prog α} (h : ∀ r, ∃ x, n r = .done x) :
    (Prog.get cf k n).Saw M (fun a => ∃ s, M s ∧ (Prog.get cf k n).run s = (s, .ok a)) := by
  intro s hs
  obtain ⟨x, hx⟩ := h ((s.kv cf).get k)
  rw [hx]
  cases x with
  | error e => trivial
  | ok a => exact ⟨s, hs, by rw [run, hx]; rfl⟩

theorem Saw.scan {cf : CF} {k : Bytes} {n : DynIter (Bytes × Bytes) → Prog α} (h : ∀ r, ∃ x, n r = .done x) :
    (Prog.scan cf k n).Saw M (fun a => ∃ s, M s ∧ (Prog.scan cf k n).run s = (s, .ok a)) := by
  intro s hs
  obtain ⟨x, hx⟩ := h (((s.kv cf).rangeFrom k).map .ok)
  rw [hx]
  cases x with
  | error e => trivial
  | ok a => exact ⟨s, hs, by rw [run, hx]; rfl⟩

/-- Looking up the items of a list. -/
theorem Saw.filterMapItems {f : α → Prog (Option β)} {R : α → Option β → Prop} (h : ∀ a, (f a).Saw M (R a)) (l : List α) :
    (Prog.filterMapItems f (l.map .ok)).Saw M (fun r => ∃ l', r = l'.map .ok ∧
      Gathers (fun a l => ∃ o, R a o ∧ l = o.toList) l l') := by
  induction l with
  | nil => exact ⟨[], rfl, .nil⟩
  | cons a as ih =>
    refine (h a).bind (fun o ho => ih.bind (fun r hr => ?_))
    obtain ⟨l', rfl, hl⟩ := hr
    refine ⟨o.toList ++ l', ?_, .cons ⟨o, ho, rfl⟩ hl⟩
    cases o <;> rfl

end Prog

namespace Rocks
open Prog
variable (X : Cfg)

/-- The database at one moment. -/
def moment (s : Rocks) : Moment where
  graph := graph X s
  vLists n i := listed (s.kv .vertexPropertyValues) n i.bytes
  vListsValue n x i := vEntry s n (X.H x.stream) i
  eLists := (index X s).ePresent
  eListsValue := (index X s).eValue

/-- The moments of a set of states. -/
def moments (M : Rocks → Prop) (m : Moment) : Prop := ∃ s, M s ∧ m = moment X s

variable {X} {M : Rocks → Prop}

theorem saw_vertexGet (hM : ∀ s, M s → Wf X s.kv) (id : Uuid) :
    (vertexGet X id).Saw M (fun o => ∃ s, M s ∧ o = (graph X s).vertex id) := by
  have h : (vertexGet X id).Saw M (fun a => ∃ s, M s ∧ (vertexGet X id).run s = (s, .ok a)) := by
    refine Saw.get (fun r => ?_)
    cases r with
    | none => exact ⟨_, rfl⟩
    | some b =>
      show ∃ x, (Prog.lift (readIdentifier b) >>= _ : Prog _) = .done x
      cases readIdentifier b <;> exact ⟨_, rfl⟩
  refine h.mono (fun a ⟨s, hs, hr⟩ => ⟨s, hs, ?_⟩)
  rw [vertexGet_run id s (hM s hs)] at hr
  cases hr; rfl

theorem saw_vertexExists (hM : ∀ s, M s → Wf X s.kv) (id : Uuid) :
    (vertexExists X id).Saw M (fun o => ∃ s, M s ∧ o = ((graph X s).vertex id).isSome) := by
  intro s hs
  exact ⟨s, hs, vertex_isSome s (hM s hs) id⟩

theorem saw_edgeContains (e : Edge) :
    (edgeContains X .edgeRanges e).Saw M (fun o => ∃ s, M s ∧ o = (graph X s).edge e) := fun s hs => ⟨s, hs, rfl⟩

theorem saw_vpGet (hR : ∀ s, M s → Readable X s.kv) (id : Uuid) (n : Identifier) :
    (vpGet X id n).Saw M (fun o => ∃ s, M s ∧ o = (graph X s).vprop id n) := by
  have h : (vpGet X id n).Saw M (fun a => ∃ s, M s ∧ (vpGet X id n).run s = (s, .ok a)) := by
    refine Saw.get (fun r => ?_)
    cases r with
    | none => exact ⟨_, rfl⟩
    | some b =>
      show ∃ x, (Prog.lift (fromSlice X b) >>= _ : Prog _) = .done x
      cases fromSlice X b <;> exact ⟨_, rfl⟩
  refine h.mono (fun a ⟨s, hs, hr⟩ => ⟨s, hs, ?_⟩)
  rw [vpGet_run id n s (hR s hs)] at hr
  cases hr; rfl

theorem saw_epGet (hR : ∀ s, M s → Readable X s.kv) (e : Edge) (n : Identifier) :
    (epGet X e n).Saw M (fun o => ∃ s, M s ∧ o = (graph X s).eprop e n) := by
  have h : (epGet X e n).Saw M (fun a => ∃ s, M s ∧ (epGet X e n).run s = (s, .ok a)) := by
    refine Saw.get (fun r => ?_)
    cases r with
    | none => exact ⟨_, rfl⟩
    | some b =>
      show ∃ x, (Prog.lift (fromSlice X b) >>= _ : Prog _) = .done x
      cases fromSlice X b <;> exact ⟨_, rfl⟩
  refine h.mono (fun a ⟨s, hs, hr⟩ => ⟨s, hs, ?_⟩)
  rw [epGet_run e n s (hR s hs)] at hr
  cases hr; rfl

/-- The scans see one state. -/
theorem saw_vertexIterate (id : Uuid) :
    (vertexIterate X id).Saw M (fun a => ∃ s, M s ∧ (vertexIterate X id).run s = (s, .ok a)) := Saw.scan (fun _ => ⟨_, rfl⟩)
theorem saw_edgeIterateAll (cf : CF) :
    (edgeIterateAll cf).Saw M (fun a => ∃ s, M s ∧ (edgeIterateAll cf).run s = (s, .ok a)) := Saw.scan (fun _ => ⟨_, rfl⟩)
theorem saw_vpvIterate (c : List Component) :
    (vpvIterate X c).Saw M (fun a => ∃ s, M s ∧ (vpvIterate X c).run s = (s, .ok a)) := Saw.scan (fun _ => ⟨_, rfl⟩)
theorem saw_epvIterate (c : List Component) :
    (epvIterate X c).Saw M (fun a => ∃ s, M s ∧ (epvIterate X c).run s = (s, .ok a)) := Saw.scan (fun _ => ⟨_, rfl⟩)
theorem saw_vpIterate (id : Uuid) :
    (propItems (vpIterate X id)).Saw M (fun a => ∃ s, M s ∧ (propItems (vpIterate X id)).run s = (s, .ok a)) :=
  Saw.scan (fun r => by
    show ∃ x, (Prog.lift (collect (mapItems (vpItem X id) (takeWithPrefix r (build X.H [.uuid id])))) >>= _ : Prog _) = .done x
    cases collect (mapItems (vpItem X id) (takeWithPrefix r (build X.H [.uuid id]))) <;> exact ⟨_, rfl⟩)
theorem saw_epIterate (e : Edge) :
    (propItems (epIterate X e)).Saw M (fun a => ∃ s, M s ∧ (propItems (epIterate X e)).run s = (s, .ok a)) :=
  Saw.scan (fun r => by
    show ∃ x, (Prog.lift (collect (mapItems (epItem X e) (takeWithPrefix r
      (build X.H [.uuid e.outboundId, .identifier e.t, .uuid e.inboundId])))) >>= _ : Prog _) = .done x
    cases collect (mapItems (epItem X e) (takeWithPrefix r
      (build X.H [.uuid e.outboundId, .identifier e.t, .uuid e.inboundId]))) <;> exact ⟨_, rfl⟩)
theorem saw_pipeVertexIter (d : EdgeDirection) (t : Option Identifier) (v : Vertex) :
    (pipeVertexIterP X d t v).Saw M (fun a => ∃ s, M s ∧ (pipeVertexIterP X d t v).run s = (s, .ok a)) := by
  cases d <;> exact Saw.scan (fun r => ⟨_, rfl⟩)

/-! ### Stages -/

section
variable (hM : ∀ s, M s → Wf X s.kv) (hR : ∀ s, M s → Readable X s.kv)
include hM

theorem saw_specificVertices (ids : List Uuid) :
    (specificVerticesP X ids).Saw M (fun r => ∃ l, r = l.map .ok ∧ Moment.LooksUp (moments X M) ids l) := by
  refine (Saw.filterMapItems (fun id => (saw_vertexGet hM id).bind (Q := fun o => ∃ s, M s ∧
    o = ((graph X s).vertex id).map (fun t => (⟨id, t⟩ : Vertex))) (fun o ho => ?_)) ids).mono (fun r hr => ?_)
  · obtain ⟨s, hs, rfl⟩ := ho
    exact ⟨s, hs, rfl⟩
  · obtain ⟨l, rfl, hl⟩ := hr
    refine ⟨l, rfl, hl.mono (fun i _ l ⟨o, ⟨s, hs, ho⟩, hl⟩ => ⟨moment X s, ⟨s, hs, rfl⟩, ?_⟩)⟩
    rw [hl, ho]
    show _ = Graph.lookup (graph X s) [i]
    unfold Graph.lookup
    rw [List.filterMap_cons]
    cases (graph X s).vertex i <;> rfl

omit hM in
theorem saw_specificEdges (es : List Edge) :
    (specificEdgesP X es).Saw M (fun r => ∃ l, r = l.map .ok ∧
      Gathers (fun e l => ∃ m, moments X M m ∧ l = [e].filter m.graph.edge) es l) := by
  refine (Saw.filterMapItems (fun e => (saw_edgeContains (X := X) e).bind (Q := fun o => ∃ s, M s ∧
    o = if (graph X s).edge e then some e else none) (fun o ho => ?_)) es).mono (fun r hr => ?_)
  · obtain ⟨s, hs, rfl⟩ := ho
    exact ⟨s, hs, rfl⟩
  · obtain ⟨l, rfl, hl⟩ := hr
    refine ⟨l, rfl, hl.mono (fun e _ l ⟨o, ⟨s, hs, ho⟩, hl⟩ => ⟨moment X s, ⟨s, hs, rfl⟩, ?_⟩)⟩
    rw [hl, ho]
    show _ = [e].filter (graph X s).edge
    cases he : (graph X s).edge e <;> simp [he]

theorem saw_existingIds (l : List Uuid) :
    (existingIds X (l.map .ok)).Saw M (fun r => ∃ ids : List Uuid, r = ids.map .ok ∧
      (∀ i ∈ ids, i ∈ l ∧ ∃ s, M s ∧ (graph X s).vertex i ≠ none) ∧
      ∀ i ∈ l, (∀ s, M s → (graph X s).vertex i ≠ none) → i ∈ ids) := by
  refine (Saw.filterMapItems (fun id => (saw_vertexExists hM id).bind (Q := fun o => ∃ s, M s ∧
    o = if ((graph X s).vertex id).isSome then some id else none) (fun o ho => ?_)) l).mono (fun r hr => ?_)
  · obtain ⟨s, hs, rfl⟩ := ho
    exact ⟨s, hs, rfl⟩
  · obtain ⟨ids, rfl, hl⟩ := hr
    refine ⟨ids, rfl, fun i hi => ?_, ?_⟩
    · obtain ⟨a, ha, l', ⟨o, ⟨s, hs, ho⟩, hl'⟩, hi'⟩ := hl.mem hi
      rw [hl', ho] at hi'
      cases hv : ((graph X s).vertex a).isSome with
      | false => rw [hv] at hi'; simp at hi'
      | true =>
        rw [hv] at hi'
        have : i = a := by simpa using hi'
        subst this
        exact ⟨ha, s, hs, by intro h; rw [h] at hv; simp at hv⟩
    · intro i hi hall
      induction hl with
      | nil => simp at hi
      | @cons a as l ls h1 h2 ih =>
        rcases List.mem_cons.1 hi with rfl | hi
        · obtain ⟨o, ⟨s, hs, ho⟩, hl'⟩ := h1
          have h3 := hall s hs
          rw [← Option.isSome_iff_ne_none] at h3
          rw [hl', ho, h3]; simp
        · exact List.mem_append_right _ (ih hi)

/-- Index readers for vertices: what the method returns. -/
theorem saw_vOpt (n : Identifier) (c : List Component) (P : Identifier → UInt64 → Prop)
    (hP : ∀ m h id, (build X.H c).isPrefixOf (vhKey m h id) = true ↔ P m h) (L : Moment → Uuid → Bool)
    (hL : ∀ s, M s → ∀ i, L (moment X s) i = true ↔ ∃ m h, P m h ∧ vEntry s m h i = true) :
    (ifIndexed n (do existingIds X (← vpvIterate X c))).Saw M (fun o => (o = none → ∃ s, M s ∧ s.indexed.contains n = false) ∧
      ∀ r, o = some r → (∃ s, M s ∧ s.indexed.contains n = true) ∧ ∃ ids, r = ids.map .ok ∧ Moment.FromIndex (moments X M) L ids) := by
  intro s0 hs0
  show Prog.Saw M _ (if _ then _ else _)
  split
  · next hin =>
    refine Saw.bind (P := fun r => ∃ ids, r = ids.map .ok ∧ Moment.FromIndex (moments X M) L ids) ?_ ?_
    · refine (saw_vpvIterate c).bind (fun it ⟨s, hs, hr⟩ => ?_)
      obtain ⟨l, h1, h2, _⟩ := vpvIterate_run c P s (hM s hs) hP
      rw [h1] at hr
      cases hr
      refine (saw_existingIds hM l).mono (fun r ⟨ids, hids, h3, h4⟩ => ⟨ids, hids, moment X s, ⟨s, hs, rfl⟩, ?_, ?_⟩)
      · intro i hi
        obtain ⟨h5, s', hs', h6⟩ := h3 i hi
        exact ⟨(hL s hs i).2 ((h2 i).1 h5), moment X s', ⟨s', hs', rfl⟩, h6⟩
      · intro i hi hall
        exact h4 i ((h2 i).2 ((hL s hs i).1 hi)) (fun s' hs' => hall _ ⟨s', hs', rfl⟩)
    · rintro r hr
      exact ⟨(fun h => nomatch h), fun r' h => by cases h; exact ⟨⟨s0, hs0, hin⟩, hr⟩⟩
  · next hin => exact ⟨fun _ => ⟨s0, hs0, by simpa using hin⟩, fun r h => nomatch h⟩

/-- Index readers for vertices. -/
theorem saw_vIds (n : Identifier) (c : List Component) (P : Identifier → UInt64 → Prop)
    (hP : ∀ m h id, (build X.H c).isPrefixOf (vhKey m h id) = true ↔ P m h) (L : Moment → Uuid → Bool)
    (hL : ∀ s, M s → ∀ i, L (moment X s) i = true ↔ ∃ m h, P m h ∧ vEntry s m h i = true) :
    (indexedP (ifIndexed n (do existingIds X (← vpvIterate X c)))).Saw M (Moment.FromIndex (moments X M) L) := by
  refine Saw.bind (saw_vOpt hM n c P hP L hL) ?_
  intro o ho
  refine Saw.lift (fun ids hids => ?_)
  cases o with
  | none => rw [indexed_none rfl] at hids; cases hids
  | some r =>
    obtain ⟨l, rfl, hl⟩ := (ho.2 r rfl).2
    rw [indexed_some rfl] at hids
    cases hids
    exact hl

theorem saw_vertexIds (n : Identifier) :
    (indexedP (vertexIdsWithPropertyP X n)).Saw M (Moment.FromIndex (moments X M) (·.vLists n)) := by
  refine saw_vIds hM n _ (fun m _ => m = n) (vPrefix_name n) _ (fun s hs i => ?_)
  show listed (s.kv .vertexPropertyValues) n i.bytes = true ↔ _
  rw [vlisted_iff s (hM s hs)]
  exact ⟨fun ⟨h, hh⟩ => ⟨n, h, rfl, hh⟩, fun ⟨m, h, hm, hh⟩ => ⟨h, by rw [← hm]; exact hh⟩⟩

theorem saw_vertexIdsValue (n : Identifier) (v : Json) :
    (indexedP (vertexIdsWithPropertyValueP X n v)).Saw M (Moment.FromIndex (moments X M) (·.vListsValue n v)) := by
  refine saw_vIds hM n _ (fun m h => m = n ∧ h = X.H v.stream) (vPrefix_value n v) _ (fun s hs i => ?_)
  show vEntry s n (X.H v.stream) i = true ↔ _
  exact ⟨fun hh => ⟨n, _, ⟨rfl, rfl⟩, hh⟩, fun ⟨m, h, ⟨hm, hh⟩, hx⟩ => by rw [← hm, ← hh]; exact hx⟩

/-- Index readers for edges: what the method returns. -/
theorem saw_eOpt (n : Identifier) (c : List Component) (P : Identifier → UInt64 → Prop)
    (hP : ∀ m h id, (build X.H c).isPrefixOf (ehKey X m h id) = true ↔ P m h) (L : Moment → Edge → Bool)
    (hL : ∀ s, M s → ∀ i, L (moment X s) i = true ↔ ∃ m h, P m h ∧ eEntry X s m h i = true) :
    (ifIndexed n (epvIterate X c)).Saw M (fun o => (o = none → ∃ s, M s ∧ s.indexed.contains n = false) ∧
      ∀ r, o = some r → (∃ s, M s ∧ s.indexed.contains n = true) ∧
        ∃ l : List Edge, r = l.map .ok ∧ ∃ m, moments X M m ∧ ∀ e, e ∈ l ↔ L m e = true) := by
  intro s0 hs0
  show Prog.Saw M _ (if _ then _ else _)
  split
  · next hin =>
    refine (saw_epvIterate c).bind (fun it ⟨s, hs, hr⟩ => ?_)
    obtain ⟨l, h1, h2, _⟩ := epvIterate_run c P s (hM s hs) hP
    rw [h1] at hr
    cases hr
    refine ⟨(fun h => nomatch h), fun r h => ?_⟩
    cases h
    exact ⟨⟨s0, hs0, hin⟩, l, rfl, moment X s, ⟨s, hs, rfl⟩, fun e => (h2 e).trans (hL s hs e).symm⟩
  · next hin => exact ⟨fun _ => ⟨s0, hs0, by simpa using hin⟩, fun r h => nomatch h⟩

/-- Index readers for edges. -/
theorem saw_eIds (n : Identifier) (c : List Component) (P : Identifier → UInt64 → Prop)
    (hP : ∀ m h id, (build X.H c).isPrefixOf (ehKey X m h id) = true ↔ P m h) (L : Moment → Edge → Bool)
    (hL : ∀ s, M s → ∀ i, L (moment X s) i = true ↔ ∃ m h, P m h ∧ eEntry X s m h i = true) :
    (indexedP (ifIndexed n (epvIterate X c))).Saw M (fun l => ∃ m, moments X M m ∧ ∀ e, e ∈ l ↔ L m e = true) := by
  refine Saw.bind (saw_eOpt hM n c P hP L hL) ?_
  intro o ho
  refine Saw.lift (fun ids hids => ?_)
  cases o with
  | none => rw [indexed_none rfl] at hids; cases hids
  | some r =>
    obtain ⟨l, rfl, hl⟩ := (ho.2 r rfl).2
    rw [indexed_some rfl] at hids
    cases hids
    exact hl

theorem saw_edgeIds (n : Identifier) :
    (indexedP (edgesWithPropertyP X n)).Saw M (fun l => ∃ m, moments X M m ∧ ∀ e, e ∈ l ↔ m.eLists n e = true) := by
  refine saw_eIds hM n _ (fun m _ => m = n) (ePrefix_name n) (·.eLists n) (fun s hs i => ?_)
  show listed (s.kv .edgePropertyValues) n (edgeKey X i) = true ↔ _
  rw [elisted_iff s (hM s hs)]
  exact ⟨fun ⟨h, hh⟩ => ⟨n, h, rfl, hh⟩, fun ⟨m, h, hm, hh⟩ => ⟨h, by rw [← hm]; exact hh⟩⟩

theorem saw_edgeIdsValue (n : Identifier) (v : Json) :
    (indexedP (edgesWithPropertyValueP X n v)).Saw M (fun l => ∃ m, moments X M m ∧ ∀ e, e ∈ l ↔ m.eListsValue n v e = true) := by
  refine saw_eIds hM n _ (fun m h => m = n ∧ h = X.H v.stream) (ePrefix_value n v) (·.eListsValue n v) (fun s hs i => ?_)
  show eEntry X s n (X.H v.stream) i = true ↔ _
  exact ⟨fun hh => ⟨n, _, ⟨rfl, rfl⟩, hh⟩, fun ⟨m, h, ⟨hm, hh⟩, hx⟩ => by rw [← hm, ← hh]; exact hx⟩

/-- What is gathered for the vertices of a traversal. -/
def PerVertex (X : Cfg) (M : Rocks → Prop) (d : EdgeDirection) (t : Option Identifier) (x : Vertex) (l : List Edge) : Prop :=
  ∃ m, moments X M m ∧ Enumerates (Moment.dirLt rocksEdgeLt d) l
          (fun e => m.graph.edge e = true ∧ d.endpoint e = x.id ∧ TypeOk t e.t)

omit hM in
theorem dirLt_eq (d : EdgeDirection) : (conv X).dirLt d = Moment.dirLt rocksEdgeLt d := by
  funext a b
  cases d <;> exact edgeLt_eq _ _

include hR

theorem perVertex (s : Rocks) (hs : M s) (d : EdgeDirection) (t : Option Identifier) (v : Vertex) :
    ∃ l, (pipeVertexIterP X d t v).run s = (s, .ok (l.map .ok)) ∧ PerVertex X M d t v l := by
  obtain ⟨l, h1, h2⟩ := pipeVertexIter_spec (faithful s (hM s hs) (hR s hs)) d t v
  refine ⟨l, ?_, moment X s, ⟨s, hs, rfl⟩, ?_⟩
  · rw [sees_pipeVertexIter X s d t v]
    exact congrArg _ h1
  · rw [dirLt_eq] at h2
    exact h2

theorem saw_pipeVertices (hne : ∃ s, M s) (d : EdgeDirection) (limit : UInt32) (t : Option Identifier) (vs : List Vertex) :
    ∀ acc : List Edge, acc.length ≤ limit.toNat →
    (pipeVerticesP X d limit t vs acc).Saw M (fun r => ∃ l, Gathers (PerVertex X M d t) vs l ∧ r = (acc ++ l).take limit.toNat) := by
  induction vs with
  | nil =>
    intro acc h
    exact ⟨[], .nil, by simp [List.take_of_length_le h]⟩
  | cons v vs ih =>
    intro acc h
    rw [pipeVerticesP]
    refine (saw_pipeVertexIter d t v).bind (fun iter ⟨s, hs, hr⟩ => ?_)
    obtain ⟨l, hl, hp⟩ := perVertex hM hR s hs d t v
    rw [hl] at hr
    cases hr
    have hn : ¬ limit.toNat < acc.length := by omega
    have e1 : acc ++ l.take (limit.toNat - acc.length) = (acc ++ l).take limit.toNat := by
      rw [List.take_append, List.take_of_length_le h]
    simp only [hn, if_false, collect_take_ok]
    show Prog.Saw M _ (if (acc ++ l.take (limit.toNat - acc.length)).length ≥ limit.toNat then _ else _)
    rw [e1]
    split
    · rename_i hge
      obtain ⟨s1, hs1⟩ := hne
      obtain ⟨l', hl'⟩ := Gathers.exist (P := PerVertex X M d t) (fun v => by
        obtain ⟨l, _, h⟩ := perVertex hM hR s1 hs1 d t v; exact ⟨l, h⟩) vs
      refine ⟨l ++ l', .cons hp hl', ?_⟩
      rw [← List.append_assoc, List.take_append (l₁ := acc ++ l)]
      have : limit.toNat ≤ (acc ++ l).length := by
        rw [List.length_take] at hge; omega
      rw [Nat.sub_eq_zero_of_le this]; simp
    · rename_i hlt
      have hl2 : (acc ++ l).length ≤ limit.toNat := by
        rw [List.length_take] at hlt; omega
      rw [List.take_of_length_le hl2]
      refine (ih _ hl2).mono (fun r ⟨l', hl', hr⟩ => ⟨l ++ l', .cons hp hl', ?_⟩)
      rw [hr, List.append_assoc]

theorem saw_stagePipe (hne : ∃ s, M s) (d : EdgeDirection) (limit : UInt32) (t : Option Identifier) (o : Output) :
    (stagePipeP X d limit t o).Saw M (Moment.Pipes (moments X M) rocksEdgeLt d limit.toNat t o) := by
  cases o with
  | edges es =>
    have key : ∀ ids, ids = es.map d.endpoint → (do
        let iter ← specificVerticesP X ids
        let l ← Prog.lift (collect ((filterT (fun x : Vertex => x.t) t iter).take limit.toNat))
        return Output.vertices l).Saw M (Moment.Pipes (moments X M) rocksEdgeLt d limit.toNat t (.edges es)) := by
      rintro ids rfl
      refine (saw_specificVertices hM _).bind (fun r ⟨l, hr, hl⟩ => ?_)
      subst hr
      rw [filterT_ok, collect_take_ok]
      exact ⟨l, hl, rfl⟩
    cases d <;> exact key _ rfl
  | vertices vs =>
    refine (saw_pipeVertices hM hR hne d limit t vs [] (by simp)).bind (fun r ⟨l, hl, hr⟩ => ?_)
    exact ⟨l, hl, by rw [hr]; rfl⟩
  | _ => trivial

theorem saw_vProps (name : Option Identifier) (v : Vertex) :
    (ownerPropsP (vpGet X v.id) (propItems (vpIterate X v.id)) name).Saw M (fun ps =>
      ∃ m, moments X M m ∧ PropList (m.graph.vprop v.id) name ps) := by
  cases name with
  | some n =>
    refine (saw_vpGet hR v.id n).bind (fun o ⟨s, hs, ho⟩ => ?_)
    subst ho
    have : ∀ o, o = (graph X s).vprop v.id n → (match o with
        | some v => pure [⟨n, v⟩]
        | none => pure [] : Prog (List NamedProperty)).Saw M (fun ps =>
      ∃ m, moments X M m ∧ PropList (m.graph.vprop v.id) (some n) ps) := by
      intro o ho
      have h : ∀ x : List NamedProperty, x = o.toList.map (fun v => ⟨n, v⟩) → ∃ m, moments X M m ∧ PropList (m.graph.vprop v.id) (some n) x :=
        fun x hx => ⟨moment X s, ⟨s, hs, rfl⟩, by show x = _; rw [hx, ho]; rfl⟩
      cases o with
      | some x => exact h _ rfl
      | none => exact h _ rfl
    exact this _ rfl
  | none =>
    refine (saw_vpIterate v.id).bind (fun iter ⟨s, hs, hr⟩ => ?_)
    have hp := (faithful s (hM s hs) (hR s hs)).allVertexProps v
    simp only [conv, Bool.false_eq_true, if_false] at hp
    obtain ⟨l, h1, h2⟩ := hp
    have h1' : (propItems (vpIterate X v.id)).eval s = .ok (l.map .ok) := h1
    unfold Prog.eval at h1'
    rw [hr] at h1'
    cases h1'
    rw [collect_map_ok]
    exact ⟨moment X s, ⟨s, hs, rfl⟩, propList_map h2⟩

theorem saw_eProps (name : Option Identifier) (e : Edge) :
    (ownerPropsP (epGet X e) (propItems (epIterate X e)) name).Saw M (fun ps =>
      ∃ m, moments X M m ∧ PropList (m.graph.eprop e) name ps) := by
  cases name with
  | some n =>
    refine (saw_epGet hR e n).bind (fun o ⟨s, hs, ho⟩ => ?_)
    subst ho
    have : ∀ o, o = (graph X s).eprop e n → (match o with
        | some v => pure [⟨n, v⟩]
        | none => pure [] : Prog (List NamedProperty)).Saw M (fun ps =>
      ∃ m, moments X M m ∧ PropList (m.graph.eprop e) (some n) ps) := by
      intro o ho
      have h : ∀ x : List NamedProperty, x = o.toList.map (fun v => ⟨n, v⟩) → ∃ m, moments X M m ∧ PropList (m.graph.eprop e) (some n) x :=
        fun x hx => ⟨moment X s, ⟨s, hs, rfl⟩, by show x = _; rw [hx, ho]; rfl⟩
      cases o with
      | some x => exact h _ rfl
      | none => exact h _ rfl
    exact this _ rfl
  | none =>
    refine (saw_epIterate e).bind (fun iter ⟨s, hs, hr⟩ => ?_)
    obtain ⟨l, h1, h2⟩ := (faithful s (hM s hs) (hR s hs)).allEdgeProps e
    have h1' : (propItems (epIterate X e)).eval s = .ok (l.map .ok) := h1
    unfold Prog.eval at h1'
    rw [hr] at h1'
    cases h1'
    rw [collect_map_ok]
    exact ⟨moment X s, ⟨s, hs, rfl⟩, propList_map h2⟩

theorem saw_stageProperty (name : Option Identifier) (o : Output) :
    (stagePropertyP X name o).Saw M (Moment.Properties (moments X M) name o) := by
  cases o with
  | edges es =>
    refine Saw.bind (P := fun l => Gathers (fun (e : Edge) l => ∃ m ps, moments X M m ∧ PropList (m.graph.eprop e) name ps ∧
      l = if ps = [] then [] else [(⟨e, ps⟩ : EdgeProperties)]) es l) ?_ (fun l hl => ⟨l, hl, rfl⟩)
    induction es with
    | nil => exact .nil
    | cons e es ih =>
      refine (saw_eProps hM hR name e).bind (fun ps ⟨m, hm, hp⟩ => ih.bind (fun l hl => ?_))
      have := Gathers.cons ⟨m, ps, hm, hp, rfl⟩ hl
      show Gathers _ _ (if ps.isEmpty then l else ⟨e, ps⟩ :: l)
      cases ps with
      | nil => simpa using this
      | cons a r => simpa using this
  | vertices vs =>
    refine Saw.bind (P := fun l => Gathers (fun (x : Vertex) l => ∃ m ps, moments X M m ∧ PropList (m.graph.vprop x.id) name ps ∧
      l = if ps = [] then [] else [(⟨x, ps⟩ : VertexProperties)]) vs l) ?_ (fun l hl => ⟨l, hl, rfl⟩)
    induction vs with
    | nil => exact .nil
    | cons v vs ih =>
      refine (saw_vProps hM hR name v).bind (fun ps ⟨m, hm, hp⟩ => ih.bind (fun l hl => ?_))
      have := Gathers.cons ⟨m, ps, hm, hp, rfl⟩ hl
      show Gathers _ _ (if ps.isEmpty then l else ⟨v, ps⟩ :: l)
      cases ps with
      | nil => simpa using this
      | cons a r => simpa using this
  | _ => trivial

omit hM hR in
theorem saw_stageFilter {es : Prog (Option (DynIter Edge))} {vs : Prog (Option (DynIter Uuid))} {vl : Moment → Uuid → Bool}
    {el : Moment → Edge → Bool} (he : (indexedP es).Saw M (fun l => ∃ m, moments X M m ∧ ∀ e, e ∈ l ↔ el m e = true))
    (hv : (indexedP vs).Saw M (Moment.FromIndex (moments X M) vl)) (keep : Bool) (o : Output) :
    (stageFilterP es vs keep o).Saw M (Moment.Filters (moments X M) vl el keep o) := by
  cases o with
  | edges es =>
    refine he.bind (fun l ⟨m, hm, hl⟩ => ⟨m, hm, ?_⟩)
    congr 1
    apply List.filter_congr
    intro e _
    rw [keepIf_eq]
    congr 1
    rw [Bool.eq_iff_iff, ← hl e]; simp
  | vertices vs =>
    refine hv.bind (fun l hl => ⟨l, hl, ?_⟩)
    congr 1
    apply List.filter_congr
    intro e _
    rw [keepIf_eq]
    congr 1
    rw [Bool.eq_iff_iff]; simp
  | _ => trivial

/-- The stack after a query. -/
def Pushed (X : Cfg) (M : Rocks → Prop) (q : Query) (out r : List Output) : Prop :=
  ∃ inc v, r = out ++ (inc ++ [v]) ∧ Moment.Observed (moments X M) rocksEdgeLt q inc v

omit hM hR in
theorem saw_runStage {i q : Query} {out : List Output} {p : Prog (List Output)} {f : Output → Prog Output}
    {S : Output → Output → Prop} (hp : p.Saw M (Pushed X M i out)) (hf : ∀ o, (f o).Saw M (S o))
    (hq : ∀ inc v w, Moment.Observed (moments X M) rocksEdgeLt i inc w → S w v →
      Moment.Observed (moments X M) rocksEdgeLt q (inc ++ if i.isInclude then [w] else []) v) :
    (runStageP i p f).Saw M (Pushed X M q out) := by
  refine hp.bind (fun r ⟨inc, w, hr, ho⟩ => ?_)
  rw [hr, vecPop_concat']
  refine (hf w).bind (fun v hv => ⟨_, v, ?_, hq inc v w ho hv⟩)
  cases i.isInclude <;> simp

theorem saw_query (hne : ∃ s, M s) (q : Query) : ∀ out, (queryP X q out).Saw M (Pushed X M q out) := by
  have one : ∀ (q : Query) (out : List Output) (v : Output), Moment.Observed (moments X M) rocksEdgeLt q [] v →
      Pushed X M q out (out ++ [v]) := fun q out v h => ⟨[], v, rfl, h⟩
  have F := fun s (hs : M s) => faithful s (hM s hs) (hR s hs)
  have hlt : (conv X).edgeLt = rocksEdgeLt := by funext a b; exact edgeLt_eq a b
  -- a scan in a state in M
  have scan : ∀ {α : Type} {p : Prog (DynIter α)} {s : Rocks} {l l' : List α}, p.run s = (s, .ok (l.map .ok)) →
      Yields (p.eval s) l' → l = l' := by
    intro α p s l l' h h'
    unfold Yields Prog.eval at h'
    rw [h] at h'
    have := congrArg collect (Except.ok.inj h')
    rw [collect_map_ok, collect_map_ok] at this
    exact Except.ok.inj this
  induction q with
  | allVertex =>
    intro out
    refine (saw_vertexIterate _).bind (fun it ⟨s, hs, hr⟩ => ?_)
    obtain ⟨l, hy, _, hl⟩ := (F s hs).allVertices
    have hy' : (vertexIterate X Uuid.nil).eval s = .ok (l.map .ok) := hy
    unfold Prog.eval at hy'
    rw [hr] at hy'
    cases hy'
    rw [collect_map_ok]
    exact one _ _ _ ⟨rfl, moment X s, ⟨s, hs, rfl⟩, l, hl, rfl⟩
  | rangeVertex limit t st =>
    intro out
    cases st with
    | none =>
      refine (saw_vertexIterate _).bind (fun it ⟨s, hs, hr⟩ => ?_)
      obtain ⟨l, hy, _, hl⟩ := (F s hs).allVertices
      have hy' : (vertexIterate X Uuid.nil).eval s = .ok (l.map .ok) := hy
      unfold Prog.eval at hy'
      rw [hr] at hy'
      cases hy'
      show Prog.Saw M _ (Prog.lift (collect ((filterT (fun x : Vertex => x.t) t (l.map .ok)).take limit.toNat)) >>= _)
      rw [filterT_ok, collect_take_ok]
      refine one _ _ _ ⟨rfl, moment X s, ⟨s, hs, rfl⟩, _, (hl.filter (fun v => decide (∀ t', t = some t' → v.t = t'))).congr ?_, rfl⟩
      intro v; simp [TypeOk, moment]
    | some id =>
      refine (saw_vertexIterate _).bind (fun it ⟨s, hs, hr⟩ => ?_)
      obtain ⟨l, hy, hl⟩ := (F s hs).rangeVertices id
      have hy' : (vertexIterate X id).eval s = .ok (l.map .ok) := hy
      unfold Prog.eval at hy'
      rw [hr] at hy'
      cases hy'
      show Prog.Saw M _ (Prog.lift (collect ((filterT (fun x : Vertex => x.t) t (l.map .ok)).take limit.toNat)) >>= _)
      rw [filterT_ok, collect_take_ok]
      refine one _ _ _ ⟨rfl, moment X s, ⟨s, hs, rfl⟩, _, (hl.filter (fun v => decide (∀ t', t = some t' → v.t = t'))).congr ?_, rfl⟩
      intro v
      simp only [TypeOk, decide_eq_true_eq, Option.some.injEq, forall_eq', moment]
      constructor
      · rintro ⟨⟨h1, h2⟩, h3⟩; exact ⟨h1, h3, h2⟩
      · rintro ⟨h1, h3, h2⟩; exact ⟨⟨h1, h2⟩, h3⟩
  | specificVertex ids =>
    intro out
    refine (saw_specificVertices hM ids).bind (fun it ⟨l, hr, hl⟩ => ?_)
    subst hr
    rw [collect_map_ok]
    exact one _ _ _ ⟨rfl, l, hl, rfl⟩
  | pipe i d l t ih =>
    exact fun out => saw_runStage (ih out) (saw_stagePipe hM hR hne d l t) (fun inc v w h1 h2 => ⟨inc, w, h1, h2, rfl⟩)
  | pipeProperty i n ih =>
    exact fun out => saw_runStage (ih out) (saw_stageProperty hM hR n) (fun inc v w h1 h2 => ⟨inc, w, h1, h2, rfl⟩)
  | vertexWithPropertyPresence n =>
    intro out
    refine (saw_vertexIds hM n).bind (fun ids hids => (saw_specificVertices hM ids).bind (fun it ⟨l, hr, hl⟩ => ?_))
    subst hr
    rw [collect_map_ok]
    exact one _ _ _ ⟨rfl, ids, l, hids, hl, rfl⟩
  | vertexWithPropertyValue n x =>
    intro out
    refine (saw_vertexIdsValue hM n x).bind (fun ids hids => (saw_specificVertices hM ids).bind (fun it ⟨l, hr, hl⟩ => ?_))
    subst hr
    rw [collect_map_ok]
    exact one _ _ _ ⟨rfl, ids, l, hids, hl, rfl⟩
  | edgeWithPropertyPresence n =>
    exact fun out => (saw_edgeIds hM n).bind (fun l ⟨m, hm, hl⟩ => one _ _ _ ⟨rfl, m, hm, l, hl, rfl⟩)
  | edgeWithPropertyValue n x =>
    exact fun out => (saw_edgeIdsValue hM n x).bind (fun l ⟨m, hm, hl⟩ => one _ _ _ ⟨rfl, m, hm, l, hl, rfl⟩)
  | pipeWithPropertyPresence i n k ih =>
    exact fun out => saw_runStage (ih out) (saw_stageFilter (saw_edgeIds hM n) (saw_vertexIds hM n) k)
      (fun inc v w h1 h2 => ⟨inc, w, h1, h2, rfl⟩)
  | pipeWithPropertyValue i n x k ih =>
    exact fun out => saw_runStage (ih out) (saw_stageFilter (saw_edgeIdsValue hM n x) (saw_vertexIdsValue hM n x) k)
      (fun inc v w h1 h2 => ⟨inc, w, h1, h2, rfl⟩)
  | allEdge =>
    intro out
    refine (saw_edgeIterateAll _).bind (fun it ⟨s, hs, hr⟩ => ?_)
    obtain ⟨l, hy, _, hl⟩ := (F s hs).allEdges
    have hy' : (edgeIterateAll .edgeRanges).eval s = .ok (l.map .ok) := hy
    unfold Prog.eval at hy'
    rw [hr] at hy'
    cases hy'
    rw [collect_map_ok]
    rw [hlt] at hl
    exact one _ _ _ ⟨rfl, moment X s, ⟨s, hs, rfl⟩, l, hl, rfl⟩
  | specificEdge es =>
    intro out
    refine (saw_specificEdges es).bind (fun it ⟨l, hr, hl⟩ => ?_)
    subst hr
    rw [collect_map_ok]
    exact one _ _ _ ⟨rfl, l, hl, rfl⟩
  | incl i ih =>
    intro out
    refine (ih out).bind (fun r ⟨inc, v, hr, hv⟩ => ?_)
    rw [hr, vecPop_concat']
    exact ⟨inc, v, by simp, hv⟩
  | count i ih =>
    intro out
    have gen : (runStageP i (queryP X i out) (fun v => Prog.lift (do return .count (← countOf v)))).Saw M
        (Pushed X M (.count i) out) := by
      refine saw_runStage (ih out) (S := fun w v => ∃ k, Moment.size w = some k ∧ v = .count k) (fun o => ?_)
        (fun inc v w h1 ⟨k, h2, h3⟩ => ⟨inc, w, k, h1, h2, h3, rfl⟩)
      cases o with
      | count n => trivial
      | _ => exact ⟨_, rfl, rfl⟩
    cases i with
    | allVertex =>
      refine Saw.bind (P := fun k => ∃ s l, M s ∧ Enumerates vertexLt l (fun x => (graph X s).vertex x.id = some x.t) ∧ k = l.length) ?_ ?_
      · refine (saw_vertexIterate _).bind (fun it ⟨s, hs, hr⟩ => ?_)
        obtain ⟨l, hy, _, hl⟩ := (F s hs).allVertices
        have hy' : (vertexIterate X Uuid.nil).eval s = .ok (l.map .ok) := hy
        unfold Prog.eval at hy'
        rw [hr] at hy'
        cases hy'
        exact ⟨s, l, hs, hl, by simp⟩
      · rintro k ⟨s, l, hs, hl, rfl⟩
        exact one _ _ _ ⟨[], .vertices l, l.length, ⟨rfl, moment X s, ⟨s, hs, rfl⟩, l, hl, rfl⟩, rfl, rfl, rfl⟩
    | allEdge =>
      refine Saw.bind (P := fun k => ∃ s l, M s ∧ Enumerates rocksEdgeLt l (fun x => (graph X s).edge x = true) ∧ k = l.length) ?_ ?_
      · refine (saw_edgeIterateAll _).bind (fun it ⟨s, hs, hr⟩ => ?_)
        obtain ⟨l, hy, _, hl⟩ := (F s hs).allEdges
        have hy' : (edgeIterateAll .edgeRanges).eval s = .ok (l.map .ok) := hy
        unfold Prog.eval at hy'
        rw [hr] at hy'
        cases hy'
        rw [hlt] at hl
        exact ⟨s, l, hs, hl, by simp⟩
      · rintro k ⟨s, l, hs, hl, rfl⟩
        exact one _ _ _ ⟨[], .edges l, l.length, ⟨rfl, moment X s, ⟨s, hs, rfl⟩, l, hl, rfl⟩, rfl, rfl, rfl⟩
    | _ => exact gen

end

/-! ### Calls under way -/

open Conc LockConc

/-- What a query may return. -/
def Returns (X : Cfg) (M : Rocks → Prop) (q : Query) (a : Reply) : Prop :=
  ∃ inc v, a = .outputs (inc ++ [v]) ∧ Moment.Observed (moments X M) rocksEdgeLt q inc v

theorem saw_get (hM : ∀ s, M s → Wf X s.kv) (hR : ∀ s, M s → Readable X s.kv) (hne : ∃ s, M s) (O : IdentOrder) (q : Query) :
    (callProg X O (.get q)).Saw M (Returns X M q) :=
  (saw_query hM hR hne q []).bind (fun r ⟨inc, v, hr, hv⟩ => ⟨inc, v, by rw [hr]; rfl, hv⟩)

/-- The watched call. -/
structure WatchInv (X : Cfg) (M : Rocks → Prop) (c : Nat) (h : List Ev) (l : List Rocks) (S : Conc) : Prop where
  unused : S.calls c = .unused → (∀ op, Ev.call c op ∉ h) ∧ ∀ r, Ev.ret c r ∉ h
  running : ∀ p, S.calls c = .running p → S.db ∈ l ∧ (∀ r, Ev.ret c r ∉ h) ∧
    ∀ q, Ev.call c (.get q) ∈ h → p.Saw M (Returns X M q)
  finished : S.calls c = .finished → ∀ q a, Ev.call c (.get q) ∈ h → Ev.ret c (.ok a) ∈ h → Returns X M q a

theorem WatchInv.step {c : Nat} {h : List Ev} {l l' : List Rocks} {S S' : Conc} {e : List Ev} (H : WatchInv X M c h l S)
    (hM : ∀ s, M s → Wf X s.kv) (hR : ∀ s, M s → Readable X s.kv) (hl : ∀ s ∈ l', M s) (hsub : ∀ s ∈ l, s ∈ l')
    (hs : Conc.Step X S e S') (hdb : (∃ p, S'.calls c = .running p) → S'.db ∈ l') : WatchInv X M c (h ++ e) l' S' := by
  -- a step that leaves the calls alone
  have same : e = [] → S'.calls c = S.calls c → WatchInv X M c (h ++ e) l' S' := by
    rintro rfl hc
    rw [List.append_nil]
    refine ⟨fun hu => H.unused (hc ▸ hu), fun p hp => ?_, fun hf => H.finished (hc ▸ hf)⟩
    exact ⟨hdb ⟨p, hp⟩, (H.running p (hc ▸ hp)).2⟩
  -- a silent step of call i
  have silent : ∀ (i : Nat) (p p' : Prog Reply), e = [] → S.calls i = .running p → S'.calls = setAt S.calls i (.running p') →
      (∀ P : Reply → Prop, S.db ∈ l → p.Saw M P → p'.Saw M P) → WatchInv X M c (h ++ e) l' S' := by
    rintro i p p' rfl hp hc hsaw
    by_cases hi : c = i
    · subst hi
      have hc' : S'.calls c = .running p' := by rw [hc, setAt_self]
      rw [List.append_nil]
      refine ⟨fun hu => ?_, fun q hq => ?_, fun hf => ?_⟩
      · rw [hc'] at hu; cases hu
      · rw [hc'] at hq; cases hq
        obtain ⟨h1, h2, h3⟩ := H.running p hp
        exact ⟨hdb ⟨_, hc'⟩, h2, fun q hq => hsaw _ h1 (h3 q hq)⟩
      · rw [hc'] at hf; cases hf
    · exact same rfl (by rw [hc, setAt_ne _ _ hi])
  cases hs with
  | call i O op hi =>
    by_cases hc : c = i
    · subst hc
      obtain ⟨h1, h2⟩ := H.unused hi
      have hdb' := hdb ⟨_, setAt_self _ _ _⟩
      refine ⟨fun hu => ?_, fun p hp => ?_, fun hf => ?_⟩
      · simp only [setAt_self] at hu; cases hu
      · simp only [setAt_self] at hp
        cases hp
        refine ⟨hdb', fun r hr => ?_, fun q hq => ?_⟩
        · rcases List.mem_append.1 hr with hr | hr
          · exact h2 r hr
          · simp at hr
        · rcases List.mem_append.1 hq with hq | hq
          · exact absurd hq (h1 _)
          · simp only [List.mem_singleton, Ev.call.injEq, true_and] at hq
            subst hq
            exact saw_get hM hR ⟨_, hl _ hdb'⟩ O q
      · simp only [setAt_self] at hf; cases hf
    · have hcall : setAt S.calls i (.running (callProg X O op)) c = S.calls c := setAt_ne _ _ hc
      have n1 : ∀ x, Ev.call c x ∈ h ++ [.call i op] → Ev.call c x ∈ h := by
        intro x hx
        rcases List.mem_append.1 hx with hx | hx
        · exact hx
        · simp only [List.mem_singleton, Ev.call.injEq] at hx; exact absurd hx.1 hc
      have n2 : ∀ x, Ev.ret c x ∈ h ++ [.call i op] → Ev.ret c x ∈ h := by
        intro x hx
        rcases List.mem_append.1 hx with hx | hx
        · exact hx
        · simp at hx
      refine ⟨fun hu => ?_, fun p hp => ?_, fun hf => ?_⟩
      · have := H.unused (hcall ▸ hu)
        exact ⟨fun op h' => this.1 op (n1 _ h'), fun r h' => this.2 r (n2 _ h')⟩
      · have := H.running p (hcall ▸ hp)
        exact ⟨hdb ⟨p, hp⟩, fun r h' => this.2.1 r (n2 _ h'), fun q h' => this.2.2 q (n1 _ h')⟩
      · exact fun q a h1 h2 => H.finished (hcall ▸ hf) q a (n1 _ h1) (n2 _ h2)
  | get i cf k n hi => exact silent i _ _ rfl hi rfl (fun P hd hp => hp _ (hl _ (hsub _ hd)))
  | scan i cf k n hi => exact silent i _ _ rfl hi rfl (fun P hd hp => hp _ (hl _ (hsub _ hd)))
  | write i b n hi => exact silent i _ _ rfl hi rfl (fun P hd hp => hp.elim)
  | readLock i held n hi hw => exact silent i _ _ rfl hi rfl (fun P hd hp => hp _ (hl _ (hsub _ hd)))
  | writeLock i n hi hw hr => exact silent i _ _ rfl hi rfl (fun P hd hp => hp.elim)
  | setIndexed i ix n hi => exact silent i _ _ rfl hi rfl (fun P hd hp => hp.elim)
  | unlock i r hi hw => exact same rfl rfl
  | unlockRead i r hi hw => exact same rfl rfl
  | ret i r hi hw hr =>
    by_cases hc : c = i
    · subst hc
      obtain ⟨h1, h2, h3⟩ := H.running _ hi
      refine ⟨fun hu => ?_, fun p hp => ?_, fun hf => ?_⟩
      · simp only [setAt_self] at hu; cases hu
      · simp only [setAt_self] at hp; cases hp
      · intro q a hq ha
        have hq' : Ev.call c (.get q) ∈ h := by
          rcases List.mem_append.1 hq with hq | hq
          · exact hq
          · simp at hq
        rcases List.mem_append.1 ha with ha | ha
        · exact absurd ha (h2 _)
        · simp only [List.mem_singleton, Ev.ret.injEq, true_and] at ha
          subst ha
          exact h3 q hq'
    · have hcall : setAt S.calls i .finished c = S.calls c := setAt_ne _ _ hc
      have n1 : ∀ x, Ev.call c x ∈ h ++ [.ret i r] → Ev.call c x ∈ h := by
        intro x hx
        rcases List.mem_append.1 hx with hx | hx
        · exact hx
        · simp at hx
      have n2 : ∀ x, Ev.ret c x ∈ h ++ [.ret i r] → Ev.ret c x ∈ h := by
        intro x hx
        rcases List.mem_append.1 hx with hx | hx
        · exact hx
        · simp only [List.mem_singleton, Ev.ret.injEq] at hx; exact absurd hx.1 hc
      refine ⟨fun hu => ?_, fun p hp => ?_, fun hf => ?_⟩
      · have := H.unused (hcall ▸ hu)
        exact ⟨fun op h' => this.1 op (n1 _ h'), fun r h' => this.2 r (n2 _ h')⟩
      · have := H.running p (hcall ▸ hp)
        exact ⟨hdb ⟨p, hp⟩, fun r h' => this.2.1 r (n2 _ h'), fun q h' => this.2.2 q (n1 _ h')⟩
      · exact fun q a h1 h2 => H.finished (hcall ▸ hf) q a (n1 _ h1) (n2 _ h2)

theorem Conc.Watch.exec {s : Rocks} {c : Nat} {h : List Ev} {l : List Rocks} {S : Conc} (w : Watch X s c h l S) : Exec X s h S := by
  induction w with
  | start => exact .nil
  | during _ hs _ ih => exact ih.snoc hs
  | before_or_after _ hs _ ih => exact ih.snoc hs

theorem Conc.Watch.exists {s : Rocks} {h : List Ev} {S : Conc} (hx : Exec X s h S) (c : Nat) : ∃ l, Watch X s c h l S := by
  induction hx with
  | nil => exact ⟨[], .start⟩
  | @snoc h S S' e hx hs ih =>
    obtain ⟨l, w⟩ := ih
    by_cases hp : ∃ p, S'.calls c = .running p
    · exact ⟨_, .during w hs hp⟩
    · exact ⟨_, .before_or_after w hs (fun p hq => hp ⟨p, hq⟩)⟩

theorem WatchInv.watch {s : Rocks} {c : Nat} {h : List Ev} {l : List Rocks} {S : Conc} (w : Watch X s c h l S)
    (hM : ∀ s, M s → Wf X s.kv) (hR : ∀ s, M s → Readable X s.kv) (hl : ∀ s ∈ l, M s) : WatchInv X M c h l S := by
  induction w with
  | start => exact ⟨fun _ => ⟨fun _ h => (nomatch h), fun _ h => (nomatch h)⟩, fun p h => (nomatch h), fun h => (nomatch h)⟩
  | during w hs hp ih =>
    exact (ih (fun s hs => hl s (List.mem_append_left _ hs))).step hM hR hl (fun s hs => List.mem_append_left _ hs) hs
      (fun _ => by simp)
  | before_or_after w hs hp ih =>
    exact (ih hl).step hM hR hl (fun s hs => hs) hs (fun ⟨p, hq⟩ => absurd hq (hp p))

/-- The states are well formed. -/
theorem Conc.Watch.ok {V : Json → Prop} {s : Rocks} {c : Nat} {h : List Ev} {l : List Rocks} {S : Conc} (w : Watch X s c h l S)
    (hw : Wf X s.kv) (hv : Values X V s.kv) (ho : OkCalls V h) : ∀ t ∈ l, Wf X t.kv ∧ Values X V t.kv := by
  have step : ∀ {h : List Ev} {l : List Rocks} {S S' : Conc} {e : List Ev}, Watch X s c h l S → Conc.Step X S e S' →
      OkCalls V (h ++ e) → Wf X S'.db.kv ∧ Values X V S'.db.kv := by
    intro h l S S' e w hs ho
    have := WfInv.exec hw hv (w.exec.snoc hs) ho
    exact ⟨this.wf, this.values⟩
  induction w with
  | start => intro t ht; cases ht
  | during w hs hp ih =>
    intro t ht
    rcases List.mem_append.1 ht with ht | ht
    · exact ih (fun c op hm => ho c op (List.mem_append_left _ hm)) t ht
    · rw [List.mem_singleton] at ht; subst ht; exact step w hs ho
  | before_or_after w hs hp ih => exact ih (fun c op hm => ho c op (List.mem_append_left _ hm))

/-! ### Queries write nothing -/

structure ReadInv (X : Cfg) (h : List Ev) (S : Conc) : Prop where
  running : ∀ c p, S.calls c = .running p → ∃ op, Ev.call c op ∈ h ∧ ((∃ q, op = .get q) → p.Reading)
  log : ∀ x ∈ S.log, ∃ op, Ev.call x.1 op ∈ h ∧ ¬ ∃ q, op = .get q
  writer : ∀ c, S.writer = some c → ∃ op, Ev.call c op ∈ h ∧ ¬ ∃ q, op = .get q

theorem ReadInv.silent {h : List Ev} {S S' : Conc} (H : ReadInv X h S) {c : Nat} {p p' : Prog Reply} (hc : S.calls c = .running p)
    (hp : p.Reading → p'.Reading) (h1 : S'.calls = setAt S.calls c (.running p')) (h2 : S'.log = S.log)
    (h3 : S'.writer = S.writer) : ReadInv X h S' := by
  refine ⟨fun i q hi => ?_, by rw [h2]; exact H.log, by rw [h3]; exact H.writer⟩
  rw [h1] at hi
  rcases setAt_eq hi with ⟨rfl, h4⟩ | ⟨_, h4⟩
  · cases h4
    obtain ⟨op, h5, h6⟩ := H.running _ _ hc
    exact ⟨op, h5, fun hq => hp (h6 hq)⟩
  · exact H.running i q h4

theorem ReadInv.step {h : List Ev} {S S' : Conc} {e : List Ev} (H : ReadInv X h S) (hs : Conc.FaultyStep X S e S') :
    ReadInv X (h ++ e) S' := by
  have more : ∀ e, ReadInv X (h ++ e) S := fun e =>
    ⟨fun c p hp => by obtain ⟨op, h1, h2⟩ := H.running c p hp; exact ⟨op, List.mem_append_left _ h1, h2⟩,
      fun x hx => by obtain ⟨op, h1, h2⟩ := H.log x hx; exact ⟨op, List.mem_append_left _ h1, h2⟩,
      fun c hc => by obtain ⟨op, h1, h2⟩ := H.writer c hc; exact ⟨op, List.mem_append_left _ h1, h2⟩⟩
  have called : ∀ (c : Nat) (op : Op) (p : Prog Reply), ((∃ q, op = .get q) → p.Reading) → e = [.call c op] →
      S' = { S with calls := setAt S.calls c (.running p) } → ReadInv X (h ++ e) S' := by
    rintro c op p hp rfl rfl
    refine ⟨fun i q hi => ?_, (more _).log, (more _).writer⟩
    rcases setAt_eq hi with ⟨rfl, h4⟩ | ⟨_, h4⟩
    · cases h4; exact ⟨op, by simp, hp⟩
    · exact (more _).running i q h4
  cases hs with
  | fine hs =>
    cases hs with
    | call c O op hc => exact called c op _ (by rintro ⟨q, rfl⟩; exact reading_get O q) rfl rfl
    | get c cf k n hc => exact (more _).silent hc (fun h => h _) rfl rfl rfl
    | scan c cf k n hc => exact (more _).silent hc (fun h => h _) rfl rfl rfl
    | write c b n hc =>
      obtain ⟨op, h1, h2⟩ := (more []).running c _ hc
      have hn : ¬ ∃ q, op = .get q := fun hq => h2 hq
      have := (more []).silent (S' := { S with calls := setAt S.calls c (.running (n ())) }) hc (fun h => h.elim) rfl rfl rfl
      refine ⟨this.running, fun x hx => ?_, this.writer⟩
      rcases List.mem_append.1 hx with hx | hx
      · exact (more []).log x hx
      · rw [List.mem_singleton] at hx; subst hx; exact ⟨op, h1, hn⟩
    | readLock c held n hc hw => exact (more _).silent hc (fun h => h _) rfl rfl rfl
    | writeLock c n hc hw hr =>
      obtain ⟨op, h1, h2⟩ := (more []).running c _ hc
      have hn : ¬ ∃ q, op = .get q := fun hq => h2 hq
      have := (more []).silent (S' := { S with calls := setAt S.calls c (.running (n S.db.indexed)) }) hc (fun h => h.elim) rfl rfl rfl
      exact ⟨this.running, this.log, fun i hi => by cases hi; exact ⟨op, h1, hn⟩⟩
    | setIndexed c ix n hc => exact (more _).silent hc (fun h => h.elim) rfl rfl rfl
    | unlock c r hc hw => exact ⟨(more _).running, (more _).log, fun c h => nomatch h⟩
    | unlockRead c r hc hw => exact ⟨(more _).running, (more _).log, (more _).writer⟩
    | ret c r hc hw hr =>
      refine ⟨fun i q hi => ?_, (more _).log, (more _).writer⟩
      rcases setAt_eq hi with ⟨rfl, h4⟩ | ⟨_, h4⟩
      · cases h4
      · exact (more _).running i q h4
  | getFails c cf k n hc => exact (more _).silent (p' := .done (.error ioFault)) hc (fun _ => trivial) rfl rfl rfl
  | scanFails c i cf lo n hc => exact (more _).silent hc (fun h => h _) rfl rfl rfl
  | writeFails c b n hc => exact (more _).silent (p' := .done (.error ioFault)) hc (fun _ => trivial) rfl rfl rfl
  | flushFails c hc => exact called c .sync (.done (.error ioFault)) (fun _ => trivial) rfl rfl

theorem ReadInv.exec {s : Rocks} {h : List Ev} {S : Conc} (hx : Conc.FaultyExec X s h S) : ReadInv X h S := by
  induction hx with
  | nil => exact ⟨fun c p h => (nomatch h), fun x h => (nomatch h), fun c h => (nomatch h)⟩
  | snoc _ hs ih => exact ih.step hs

/-- If all calls are queries, the database does not change. -/
theorem only_reads {s : Rocks} {h : List Ev} {S : Conc} (hx : Conc.FaultyExec X s h S)
    (hg : ∀ c op, Ev.call c op ∈ h → ∃ q, op = .get q) : S.db = s ∧ S.log = [] := by
  induction hx with
  | nil => exact ⟨rfl, rfl⟩
  | @snoc h S S' e hx hs ih =>
    have ih := ih (fun c op hm => hg c op (List.mem_append_left _ hm))
    have H := ReadInv.exec hx
    have rd : ∀ c p, S.calls c = .running p → p.Reading := fun c p hp => by
      obtain ⟨op, h1, h2⟩ := H.running c p hp
      exact h2 (hg c op (List.mem_append_left _ h1))
    cases hs with
    | fine hs =>
      cases hs with
      | write c b n hc => exact (rd c _ hc).elim
      | setIndexed c ix n hc => exact (rd c _ hc).elim
      | _ => exact ih
    | _ => exact ih

end Rocks

/-! ### Consequences -/

namespace Moment
variable {M : Moment → Prop} {edgeLt : Edge → Edge → Bool}

theorem LooksUp.existed {ids : List Uuid} {l : List Vertex} (h : LooksUp M ids l) {x : Vertex} (hx : x ∈ l) :
    ∃ m, M m ∧ m.graph.vertex x.id = some x.t := by
  obtain ⟨i, _, l', ⟨m, hm, hl⟩, hx⟩ := h.mem hx
  refine ⟨m, hm, ?_⟩
  rw [hl] at hx
  unfold Graph.lookup at hx
  rw [List.mem_filterMap] at hx
  obtain ⟨j, _, hj⟩ := hx
  cases hv : m.graph.vertex j with
  | none => rw [hv] at hj; simp at hj
  | some t =>
    rw [hv] at hj
    have : x = ⟨j, t⟩ := by simpa using hj.symm
    subst this; exact hv

/-- What holds of the values of all queries holds of those that are included. -/
theorem Observed.included {P : Output → Prop} (hP : ∀ q inc v, Observed M edgeLt q inc v → P v) (q : Query) :
    ∀ inc v, Observed M edgeLt q inc v → ∀ o ∈ inc ++ [v], P o := by
  suffices hi : ∀ inc v, Observed M edgeLt q inc v → ∀ o ∈ inc, P o by
    intro inc v h o ho
    rcases List.mem_append.1 ho with ho | ho
    · exact hi inc v h o ho
    · rw [List.mem_singleton] at ho; subst ho; exact hP _ _ _ h
  have one : ∀ {b : Bool} {inc inc' : List Output} {w : Output}, (∀ o ∈ inc', P o) → P w →
      inc = inc' ++ (if b then [w] else []) → ∀ o ∈ inc, P o := by
    rintro b _ inc' w h1 h2 rfl o ho
    rcases List.mem_append.1 ho with ho | ho
    · exact h1 o ho
    · split at ho
      · rw [List.mem_singleton] at ho; subst ho; exact h2
      · cases ho
  induction q with
  | pipe i d l t ih => rintro inc v ⟨inc', w, h1, h2, h3⟩; exact one (ih inc' w h1) (hP _ _ _ h1) h3
  | pipeProperty i n ih => rintro inc v ⟨inc', w, h1, h2, h3⟩; exact one (ih inc' w h1) (hP _ _ _ h1) h3
  | pipeWithPropertyPresence i n k ih => rintro inc v ⟨inc', w, h1, h2, h3⟩; exact one (ih inc' w h1) (hP _ _ _ h1) h3
  | pipeWithPropertyValue i n x k ih => rintro inc v ⟨inc', w, h1, h2, h3⟩; exact one (ih inc' w h1) (hP _ _ _ h1) h3
  | incl i ih => exact ih
  | count i ih => rintro inc v ⟨inc', w, k, h1, _, _, h3⟩; exact one (ih inc' w h1) (hP _ _ _ h1) h3
  | _ => rintro inc v ⟨rfl, _⟩ o ho; cases ho

/-- Vertices existed, with their type. -/
theorem Observed.vertices (q : Query) : ∀ inc v, Observed M edgeLt q inc v → ∀ vs, v = .vertices vs → ∀ x ∈ vs,
    ∃ m, M m ∧ m.graph.vertex x.id = some x.t := by
  have filt : ∀ {vl el k w v}, Filters M vl el k w v → (∀ vs, w = .vertices vs → ∀ x ∈ vs,
      ∃ m, M m ∧ m.graph.vertex x.id = some x.t) → ∀ vs, v = .vertices vs → ∀ x ∈ vs, ∃ m, M m ∧ m.graph.vertex x.id = some x.t := by
    intro vl el k w v h hw vs hv x hx
    cases w with
    | vertices ws =>
      obtain ⟨ids, _, rfl⟩ := h
      cases hv
      exact hw ws rfl x (List.mem_filter.1 hx).1
    | edges es => obtain ⟨m, _, rfl⟩ := h; cases hv
    | _ => exact h.elim
  induction q with
  | allVertex => rintro inc v ⟨_, m, hm, l, hl, rfl⟩ vs hv x hx; cases hv; exact ⟨m, hm, (hl.mem x).1 hx⟩
  | rangeVertex =>
    rintro inc v ⟨_, m, hm, l, hl, rfl⟩ vs hv x hx; cases hv; exact ⟨m, hm, ((hl.mem x).1 (List.mem_of_mem_take hx)).1⟩
  | specificVertex ids => rintro inc v ⟨_, l, hl, rfl⟩ vs hv x hx; cases hv; exact hl.existed hx
  | vertexWithPropertyPresence n => rintro inc v ⟨_, ids, l, _, hl, rfl⟩ vs hv x hx; cases hv; exact hl.existed hx
  | vertexWithPropertyValue n y => rintro inc v ⟨_, ids, l, _, hl, rfl⟩ vs hv x hx; cases hv; exact hl.existed hx
  | allEdge => rintro inc v ⟨_, m, hm, l, hl, rfl⟩ vs hv; cases hv
  | specificEdge es => rintro inc v ⟨_, l, hl, rfl⟩ vs hv; cases hv
  | edgeWithPropertyPresence n => rintro inc v ⟨_, m, hm, l, hl, rfl⟩ vs hv; cases hv
  | edgeWithPropertyValue n y => rintro inc v ⟨_, m, hm, l, hl, rfl⟩ vs hv; cases hv
  | pipe i d l t ih =>
    rintro inc v ⟨inc', w, h1, h2, h3⟩ vs hv x hx
    cases w with
    | edges es =>
      obtain ⟨l', hl, rfl⟩ := h2
      cases hv
      exact hl.existed (List.mem_filter.1 (List.mem_of_mem_take hx)).1
    | vertices vs => obtain ⟨l', hl, rfl⟩ := h2; cases hv
    | _ => exact h2.elim
  | pipeProperty i n ih =>
    rintro inc v ⟨inc', w, h1, h2, h3⟩ vs hv x hx
    cases w with
    | edges es => obtain ⟨l', hl, rfl⟩ := h2; cases hv
    | vertices vs => obtain ⟨l', hl, rfl⟩ := h2; cases hv
    | _ => exact h2.elim
  | pipeWithPropertyPresence i n k ih => rintro inc v ⟨inc', w, h1, h2, h3⟩; exact filt h2 (ih inc' w h1)
  | pipeWithPropertyValue i n y k ih => rintro inc v ⟨inc', w, h1, h2, h3⟩; exact filt h2 (ih inc' w h1)
  | incl i ih => exact ih
  | count i ih => rintro inc v ⟨inc', w, k, h1, _, rfl, h3⟩ vs hv; cases hv

/-- Edges existed, or were listed by an index. -/
theorem Observed.edges (q : Query) : ∀ inc v, Observed M edgeLt q inc v → ∀ es, v = .edges es → ∀ e ∈ es,
    ∃ m, M m ∧ Known m e := by
  have filt : ∀ {vl el k w v}, Filters M vl el k w v → (∀ vs, w = .edges vs → ∀ x ∈ vs,
      ∃ m, M m ∧ Known m x) → ∀ vs, v = .edges vs → ∀ x ∈ vs, ∃ m, M m ∧ Known m x := by
    intro vl el k w v h hw vs hv x hx
    cases w with
    | vertices ws => obtain ⟨ids, _, rfl⟩ := h; cases hv
    | edges es => obtain ⟨m, _, rfl⟩ := h; cases hv; exact hw es rfl x (List.mem_filter.1 hx).1
    | _ => exact h.elim
  induction q with
  | allVertex => rintro inc v ⟨_, m, hm, l, hl, rfl⟩ vs hv; cases hv
  | rangeVertex => rintro inc v ⟨_, m, hm, l, hl, rfl⟩ vs hv; cases hv
  | specificVertex ids => rintro inc v ⟨_, l, hl, rfl⟩ vs hv; cases hv
  | vertexWithPropertyPresence n => rintro inc v ⟨_, ids, l, _, hl, rfl⟩ vs hv; cases hv
  | vertexWithPropertyValue n y => rintro inc v ⟨_, ids, l, _, hl, rfl⟩ vs hv; cases hv
  | allEdge => rintro inc v ⟨_, m, hm, l, hl, rfl⟩ vs hv x hx; cases hv; exact ⟨m, hm, .inl ((hl.mem x).1 hx)⟩
  | specificEdge es =>
    rintro inc v ⟨_, l, hl, rfl⟩ vs hv x hx
    cases hv
    obtain ⟨e, _, l', ⟨m, hm, rfl⟩, hx⟩ := hl.mem hx
    exact ⟨m, hm, .inl (List.mem_filter.1 hx).2⟩
  | edgeWithPropertyPresence n =>
    rintro inc v ⟨_, m, hm, l, hl, rfl⟩ vs hv x hx; cases hv; exact ⟨m, hm, .inr ⟨n, .inl ((hl x).1 hx)⟩⟩
  | edgeWithPropertyValue n y =>
    rintro inc v ⟨_, m, hm, l, hl, rfl⟩ vs hv x hx; cases hv; exact ⟨m, hm, .inr ⟨n, .inr ⟨y, (hl x).1 hx⟩⟩⟩
  | pipe i d l t ih =>
    rintro inc v ⟨inc', w, h1, h2, h3⟩ vs hv x hx
    cases w with
    | edges es => obtain ⟨l', hl, rfl⟩ := h2; cases hv
    | vertices vs =>
      obtain ⟨l', hl, rfl⟩ := h2
      cases hv
      obtain ⟨_, _, l', ⟨m, hm, hl⟩, hx⟩ := hl.mem (List.mem_of_mem_take hx)
      exact ⟨m, hm, .inl ((hl.mem x).1 hx).1⟩
    | _ => exact h2.elim
  | pipeProperty i n ih =>
    rintro inc v ⟨inc', w, h1, h2, h3⟩ vs hv x hx
    cases w with
    | edges es => obtain ⟨l', hl, rfl⟩ := h2; cases hv
    | vertices vs => obtain ⟨l', hl, rfl⟩ := h2; cases hv
    | _ => exact h2.elim
  | pipeWithPropertyPresence i n k ih => rintro inc v ⟨inc', w, h1, h2, h3⟩; exact filt h2 (ih inc' w h1)
  | pipeWithPropertyValue i n y k ih => rintro inc v ⟨inc', w, h1, h2, h3⟩; exact filt h2 (ih inc' w h1)
  | incl i ih => exact ih
  | count i ih => rintro inc v ⟨inc', w, k, h1, _, rfl, h3⟩ vs hv; cases hv

theorem PropList.get {get : Identifier → Option Json} {name : Option Identifier} {l : List NamedProperty}
    (h : PropList get name l) : ∀ p ∈ l, get p.name = some p.value := by
  intro p hp
  cases name with
  | none => exact (h.mem p).1 hp
  | some n =>
    have h : l = (get n).toList.map (fun v => ⟨n, v⟩) := h
    rw [h] at hp
    cases hg : get n with
    | none => rw [hg] at hp; simp at hp
    | some x => rw [hg] at hp; simp only [Option.toList_some, List.map_cons, List.map_nil, List.mem_singleton] at hp; subst hp; exact hg

/-- The properties reported for one vertex were its properties, all at one moment. -/
theorem Observed.vertexProps (q : Query) : ∀ inc v, Observed M edgeLt q inc v → ∀ l, v = .vertexProperties l → ∀ x ∈ l,
    ∃ m, M m ∧ ∀ p ∈ x.props, m.graph.vprop x.vertex.id p.name = some p.value := by
  induction q with
  | allVertex => rintro inc v ⟨_, m, hm, l, hl, rfl⟩ vs hv; cases hv
  | rangeVertex => rintro inc v ⟨_, m, hm, l, hl, rfl⟩ vs hv; cases hv
  | specificVertex ids => rintro inc v ⟨_, l, hl, rfl⟩ vs hv; cases hv
  | vertexWithPropertyPresence n => rintro inc v ⟨_, ids, l, _, hl, rfl⟩ vs hv; cases hv
  | vertexWithPropertyValue n y => rintro inc v ⟨_, ids, l, _, hl, rfl⟩ vs hv; cases hv
  | allEdge => rintro inc v ⟨_, m, hm, l, hl, rfl⟩ vs hv; cases hv
  | specificEdge es => rintro inc v ⟨_, l, hl, rfl⟩ vs hv; cases hv
  | edgeWithPropertyPresence n => rintro inc v ⟨_, m, hm, l, hl, rfl⟩ vs hv; cases hv
  | edgeWithPropertyValue n y => rintro inc v ⟨_, m, hm, l, hl, rfl⟩ vs hv; cases hv
  | pipe i d l t ih =>
    rintro inc v ⟨inc', w, h1, h2, h3⟩ vs hv x hx
    cases w with
    | edges es => obtain ⟨l', hl, rfl⟩ := h2; cases hv
    | vertices vs => obtain ⟨l', hl, rfl⟩ := h2; cases hv
    | _ => exact h2.elim
  | pipeProperty i n ih =>
    rintro inc v ⟨inc', w, h1, h2, h3⟩ vs hv x hx
    cases w with
    | edges es => obtain ⟨l', hl, rfl⟩ := h2; cases hv
    | vertices vs =>
      obtain ⟨l', hl, rfl⟩ := h2
      cases hv
      obtain ⟨y, _, l', ⟨m, ps, hm, hp, rfl⟩, hx⟩ := hl.mem hx
      split at hx
      · cases hx
      · rw [List.mem_singleton] at hx; subst hx; exact ⟨m, hm, PropList.get hp⟩
    | _ => exact h2.elim
  | pipeWithPropertyPresence i n k ih =>
    rintro inc v ⟨inc', w, h1, h2, h3⟩ vs hv
    cases w with
    | vertices ws => obtain ⟨ids, _, rfl⟩ := h2; cases hv
    | edges es => obtain ⟨m, _, rfl⟩ := h2; cases hv
    | _ => exact h2.elim
  | pipeWithPropertyValue i n y k ih =>
    rintro inc v ⟨inc', w, h1, h2, h3⟩ vs hv
    cases w with
    | vertices ws => obtain ⟨ids, _, rfl⟩ := h2; cases hv
    | edges es => obtain ⟨m, _, rfl⟩ := h2; cases hv
    | _ => exact h2.elim
  | incl i ih => exact ih
  | count i ih => rintro inc v ⟨inc', w, k, h1, _, rfl, h3⟩ vs hv; cases hv

theorem Observed.edgeProps (q : Query) : ∀ inc v, Observed M edgeLt q inc v → ∀ l, v = .edgeProperties l → ∀ x ∈ l,
    ∃ m, M m ∧ ∀ p ∈ x.props, m.graph.eprop x.edge p.name = some p.value := by
  induction q with
  | allVertex => rintro inc v ⟨_, m, hm, l, hl, rfl⟩ vs hv; cases hv
  | rangeVertex => rintro inc v ⟨_, m, hm, l, hl, rfl⟩ vs hv; cases hv
  | specificVertex ids => rintro inc v ⟨_, l, hl, rfl⟩ vs hv; cases hv
  | vertexWithPropertyPresence n => rintro inc v ⟨_, ids, l, _, hl, rfl⟩ vs hv; cases hv
  | vertexWithPropertyValue n y => rintro inc v ⟨_, ids, l, _, hl, rfl⟩ vs hv; cases hv
  | allEdge => rintro inc v ⟨_, m, hm, l, hl, rfl⟩ vs hv; cases hv
  | specificEdge es => rintro inc v ⟨_, l, hl, rfl⟩ vs hv; cases hv
  | edgeWithPropertyPresence n => rintro inc v ⟨_, m, hm, l, hl, rfl⟩ vs hv; cases hv
  | edgeWithPropertyValue n y => rintro inc v ⟨_, m, hm, l, hl, rfl⟩ vs hv; cases hv
  | pipe i d l t ih =>
    rintro inc v ⟨inc', w, h1, h2, h3⟩ vs hv x hx
    cases w with
    | edges es => obtain ⟨l', hl, rfl⟩ := h2; cases hv
    | vertices vs => obtain ⟨l', hl, rfl⟩ := h2; cases hv
    | _ => exact h2.elim
  | pipeProperty i n ih =>
    rintro inc v ⟨inc', w, h1, h2, h3⟩ vs hv x hx
    cases w with
    | vertices es => obtain ⟨l', hl, rfl⟩ := h2; cases hv
    | edges vs =>
      obtain ⟨l', hl, rfl⟩ := h2
      cases hv
      obtain ⟨y, _, l', ⟨m, ps, hm, hp, rfl⟩, hx⟩ := hl.mem hx
      split at hx
      · cases hx
      · rw [List.mem_singleton] at hx; subst hx; exact ⟨m, hm, PropList.get hp⟩
    | _ => exact h2.elim
  | pipeWithPropertyPresence i n k ih =>
    rintro inc v ⟨inc', w, h1, h2, h3⟩ vs hv
    cases w with
    | vertices ws => obtain ⟨ids, _, rfl⟩ := h2; cases hv
    | edges es => obtain ⟨m, _, rfl⟩ := h2; cases hv
    | _ => exact h2.elim
  | pipeWithPropertyValue i n y k ih =>
    rintro inc v ⟨inc', w, h1, h2, h3⟩ vs hv
    cases w with
    | vertices ws => obtain ⟨ids, _, rfl⟩ := h2; cases hv
    | edges es => obtain ⟨m, _, rfl⟩ := h2; cases hv
    | _ => exact h2.elim
  | incl i ih => exact ih
  | count i ih => rintro inc v ⟨inc', w, k, h1, _, rfl, h3⟩ vs hv; cases hv

end Moment
end IndraDB
