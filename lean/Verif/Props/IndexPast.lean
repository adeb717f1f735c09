import Verif.Proofs.IndexPast
import Verif.Props.Memory
/-
C11, what is true of release builds: index queries list exactly the owners that had the property at some moment since
its name was indexed.
-/
set_option linter.unusedSimpArgs false
namespace IndraDB
open Mem

theorem nodup_lookup_of (g : Graph) (l : List Uuid) (hl : l.Nodup) : (g.lookup l).Nodup := by
  unfold Graph.lookup
  induction l with
  | nil => simp
  | cons a r ih =>
    rw [List.nodup_cons] at hl
    simp only [List.filterMap_cons]
    cases hg : g.vertex a with
    | none => exact ih hl.2
    | some t =>
      simp only [Option.map_some, List.nodup_cons]
      exact ⟨fun hm => hl.1 (mem_lookup (g := g) hm).1, ih hl.2⟩

variable (K : HashEq)

/-- What the four index queries answer, in terms of the index. -/
theorem memIndexQueries {d : (memStore K .release).State} (hr : (memStore K .release).Reach d)
    (O : (memStore K .release).Env) (n : Identifier)
    (hn : d.mem.graph.indexed n = true) :
    (∃ l, (memStore K .release).value O (.vertexWithPropertyPresence n) d = .ok (.vertices l) ∧ l.Nodup ∧
      ∀ v, v ∈ l ↔ d.mem.graph.vertex v.id = some v.t ∧ ∃ x, d.mem.idx K n x (.inl v.id) = true) ∧
    (∃ l, (memStore K .release).value O (.edgeWithPropertyPresence n) d = .ok (.edges l) ∧ l.Nodup ∧
      ∀ e, e ∈ l ↔ ∃ x, d.mem.idx K n x (.inr e) = true) ∧
    (∀ x, ∃ l, (memStore K .release).value O (.vertexWithPropertyValue n x) d = .ok (.vertices l) ∧ l.Nodup ∧
      ∀ v, v ∈ l ↔ d.mem.graph.vertex v.id = some v.t ∧ d.mem.idx K n x (.inl v.id) = true) ∧
    (∀ x, ∃ l, (memStore K .release).value O (.edgeWithPropertyValue n x) d = .ok (.edges l) ∧ l.Nodup ∧
      ∀ e, e ∈ l ↔ d.mem.graph.edge e = true ∧ d.mem.idx K n x (.inr e) = true) := by
  have F := memConforms K .release
  have hd := (memStore_reach hr).2.wf.distinct
  refine ⟨?_, ?_, ?_, ?_⟩
  · have := F.answers hr O (.vertexWithPropertyPresence n)
    simp only [Answers] at this
    rw [if_pos (show ((memStore K .release).graph d).indexed n = true from hn)] at this
    obtain ⟨l, hl, he⟩ := this
    refine ⟨_, by rw [F.value_eq hr, he]; rfl, nodup_lookup_of _ l (hl.2 trivial), ?_⟩
    intro v
    rw [lookup_iff, hl.1]
    constructor
    · rintro ⟨h1, h2⟩; exact ⟨h2, (listed_iff hd n _).1 h1⟩
    · rintro ⟨h2, h1⟩; exact ⟨(listed_iff hd n _).2 h1, h2⟩
  · have := F.answers hr O (.edgeWithPropertyPresence n)
    simp only [Answers] at this
    rw [if_pos (show ((memStore K .release).graph d).indexed n = true from hn)] at this
    obtain ⟨l, hl, he⟩ := this
    refine ⟨_, by rw [F.value_eq hr, he]; rfl, hl.2 trivial, ?_⟩
    intro e
    rw [hl.1]
    exact listed_iff hd n _
  · intro x
    have := F.answers hr O (.vertexWithPropertyValue n x)
    simp only [Answers] at this
    rw [if_pos (show ((memStore K .release).graph d).indexed n = true from hn)] at this
    obtain ⟨l, hl, he⟩ := this
    refine ⟨_, by rw [F.value_eq hr, he]; rfl, nodup_lookup_of _ l (hl.2 trivial), ?_⟩
    intro v
    rw [lookup_iff, hl.1]
    exact And.comm
  · intro x
    have := F.answers hr O (.edgeWithPropertyValue n x)
    simp only [Answers] at this
    rw [if_pos (show ((memStore K .release).graph d).indexed n = true from hn)] at this
    obtain ⟨l, hl, he⟩ := this
    refine ⟨_, by rw [F.value_eq hr, he]; rfl, hl.2 trivial, ?_⟩
    intro e
    rw [hl.1]
    show (d.mem.idx K n x (.inr e) && d.mem.edges.contains e) = true ↔ _
    rw [Bool.and_eq_true]
    exact And.comm

theorem release_explained {hist : List (HashOrder × Op)}
    (hal : (memStore K .release).alive ((memStore K .release).run hist MemDb.new) = true) :
    Explained K (fun g => g ∈ (memStore K .release).past hist MemDb.new)
      ((memStore K .release).run hist MemDb.new).mem := by
  have hrun : (memStore K .release).run hist MemDb.new = MemDb.run K .release hist MemDb.new := memStore_run hist _
  have hp : (MemDb.run K .release hist MemDb.new).poisoned = false := by
    rw [hrun] at hal; simpa [memStore] using hal
  have h := explained_run (K := K) hist (d := MemDb.new) (P := fun _ => False) (fun _ => MemDb.inv_new)
    (fun n v x h => by simp [idx, MemDb.new, Mem.empty] at h) hp
  rw [hrun]
  intro n v x hx
  obtain ⟨g, hg, hh⟩ := h n v x hx
  exact ⟨g, hg.resolve_left id, hh⟩

/-- What is true of C11 in **all** histories of release builds: what index queries list had the property (value) at some
moment since the name was indexed; listed vertices exist, and edges listed by value do. Missing: that they still have it
(`C11_memory_release_refuted`). -/
theorem C11_memory_release_remembers_partial (hist : List (HashOrder × Op))
    (hal : (memStore K .release).alive ((memStore K .release).run hist MemDb.new) = true) :
    (memStore K .release).IndexRemembersAt K.same ((memStore K .release).past hist MemDb.new)
      ((memStore K .release).run hist MemDb.new) := by
  have hr : (memStore K .release).Reach ((memStore K .release).run hist MemDb.new) := ⟨hist, rfl, hal, memStore_ok hist⟩
  have he := release_explained K hal
  intro O n hn
  obtain ⟨⟨l1, a1, b1, c1⟩, ⟨l2, a2, b2, c2⟩, h3, h4⟩ := memIndexQueries K hr O n hn
  refine ⟨⟨l1, a1, b1, ?_⟩, ⟨l2, a2, b2, ?_⟩, ?_, ?_⟩
  · intro v hv
    obtain ⟨e1, x, hx⟩ := (c1 v).1 hv
    obtain ⟨g, hg, hi, w, hw, _⟩ := he n x _ hx
    exact ⟨e1, g, hg, hi, by rw [show g.vprop v.id n = some w from hw]; simp⟩
  · intro e hv
    obtain ⟨x, hx⟩ := (c2 e).1 hv
    obtain ⟨g, hg, hi, w, hw, _⟩ := he n x _ hx
    exact ⟨g, hg, hi, by rw [show g.eprop e n = some w from hw]; simp⟩
  · intro x
    obtain ⟨l, a, b, c⟩ := h3 x
    refine ⟨l, a, b, fun v hv => ?_⟩
    obtain ⟨e1, hx⟩ := (c v).1 hv
    obtain ⟨g, hg, hi, w, hw, hs⟩ := he n x _ hx
    exact ⟨e1, g, hg, hi, w, hw, hs⟩
  · intro x
    obtain ⟨l, a, b, c⟩ := h4 x
    refine ⟨l, a, b, fun e hv => ?_⟩
    obtain ⟨e1, hx⟩ := (c e).1 hv
    obtain ⟨g, hg, hi, w, hw, hs⟩ := he n x _ hx
    exact ⟨e1, g, hg, hi, w, hw, hs⟩

/-- What is true of C11, exactly, in release builds and histories that write properties only to existing owners: index
queries list **exactly** the owners that had the property (value) at some moment since the name was indexed (and, except
in the presence query for edges, exist). Missing: that they still have it (`C11_memory_release_refuted`). -/
theorem C11_memory_release_exact_partial (hist : List (HashOrder × Op))
    (hc : (memStore K .release).CheckedHist .release hist MemDb.new)
    (hal : (memStore K .release).alive ((memStore K .release).run hist MemDb.new) = true) :
    (memStore K .release).IndexIsPastAt K.same ((memStore K .release).past hist MemDb.new)
      ((memStore K .release).run hist MemDb.new) := by
  have hr : (memStore K .release).Reach ((memStore K .release).run hist MemDb.new) := ⟨hist, rfl, hal, memStore_ok hist⟩
  have he := release_explained K hal
  have hm : Remembers K (fun g => g ∈ (memStore K .release).past hist MemDb.new)
      ((memStore K .release).run hist MemDb.new).mem := by
    have hrun : (memStore K .release).run hist MemDb.new = MemDb.run K .release hist MemDb.new := memStore_run hist _
    have hp : (MemDb.run K .release hist MemDb.new).poisoned = false := by
      rw [hrun] at hal; simpa [memStore] using hal
    have h := remembers_run (K := K) hist (d := MemDb.new) (P := fun _ => False) (fun _ => MemDb.cinv_new)
      (fun _ h => h.elim) hc hp
    rw [hrun]
    exact fun g hg => h g (Or.inr hg)
  generalize hpast : (memStore K .release).past hist MemDb.new = past at *
  generalize (memStore K .release).run hist MemDb.new = d at *
  have key : ∀ n x v, d.mem.idx K n v x = true ↔
      ∃ g ∈ past, g.indexed n = true ∧ ∃ w, g.memberProp x n = some w ∧ K.same w v = true := by
    intro n x v
    constructor
    · intro h; obtain ⟨g, hg, hi, h⟩ := he n v x h; exact ⟨g, hg, hi, h⟩
    · rintro ⟨g, hg, hi, w, hw, hs⟩
      have h1 := hm g hg n x w hi hw
      unfold idx at h1 ⊢
      cases hc : d.mem.propertyValues.get n with
      | none => rw [hc] at h1; simp at h1
      | some c => rw [hc] at h1; simp only at h1 ⊢; rw [← Container.idx_congr c hs]; exact h1
  have keyL : ∀ n x, (∃ v, d.mem.idx K n v x = true) ↔
      ∃ g ∈ past, g.indexed n = true ∧ g.memberProp x n ≠ none := by
    intro n x
    constructor
    · rintro ⟨v, h⟩
      obtain ⟨g, hg, hi, w, hw, _⟩ := (key n x v).1 h
      exact ⟨g, hg, hi, by rw [hw]; simp⟩
    · rintro ⟨g, hg, hi, h⟩
      cases hw : g.memberProp x n with
      | none => exact absurd hw h
      | some w => exact ⟨w, (key n x w).2 ⟨g, hg, hi, w, hw, K.refl w⟩⟩
  intro O n hn
  obtain ⟨⟨l1, a1, b1, c1⟩, ⟨l2, a2, b2, c2⟩, h3, h4⟩ := memIndexQueries K hr O n hn
  refine ⟨⟨l1, a1, b1, fun v => ?_⟩, ⟨l2, a2, b2, fun e => ?_⟩, fun x => ?_, fun x => ?_⟩
  · rw [c1, keyL]; rfl
  · rw [c2, keyL]; rfl
  · obtain ⟨l, a, b, c⟩ := h3 x
    exact ⟨l, a, b, fun v => by rw [c, key]; rfl⟩
  · obtain ⟨l, a, b, c⟩ := h4 x
    exact ⟨l, a, b, fun v => by rw [c, key]; rfl⟩

example := C11_memory_release_remembers_partial HashEq.byHash W.hist (by decide +kernel)

example := C11_memory_release_exact_partial HashEq.byHash W.hist
  ⟨trivial, trivial, trivial, trivial, trivial, Or.inr trivial, trivial, Or.inr trivial, Or.inr trivial, Or.inr trivial, trivial⟩
  (by decide +kernel)

/-- The value 7 was overwritten by 8 and is still listed; so is a property set and overwritten within one bulk insert; a
value never written is not. -/
def W.overwritten : List (HashOrder × Op) := [Op.createVertex ⟨W.u 1, W.t⟩, .indexProperty W.p,
  .bulkInsert [.vertexProperty (W.u 1) W.p (W.n 6), .vertexProperty (W.u 1) W.p (W.n 7)],
  .setProperties .allVertex W.p (W.n 8)].map (fun o => (HashOrder.sorted, o))

example : [5, 6, 7, 8].map (fun k => (memStore HashEq.byHash .release).value HashOrder.sorted
      (.vertexWithPropertyValue W.p (W.n k)) ((memStore HashEq.byHash .release).run W.overwritten MemDb.new))
    = [.ok (.vertices []), .ok (.vertices [⟨W.u 1, W.t⟩]), .ok (.vertices [⟨W.u 1, W.t⟩]),
      .ok (.vertices [⟨W.u 1, W.t⟩])] ∧
    ((memStore HashEq.byHash .release).past W.overwritten MemDb.new).map (fun g => g.vprop (W.u 1) W.p)
      = [none, none, none, some (W.n 6), some (W.n 7), some (W.n 7), some (W.n 8)] := by decide +kernel

end IndraDB
