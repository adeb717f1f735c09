import Verif.Proofs.Unread
import Verif.Proofs.RocksWrites
/-
When exactly calls are refused because of values that cannot be read.
-/
namespace IndraDB
open Rocks

namespace Prog
/-- The error of the datastore. -/
local notation "dsErr" => (Except.error ioFault)
variable {α β : Type} {s : Rocks}

/-- In the state `s`: `q` succeeds; `p` is refused if `H`, and else does the same. -/
def Ref (s : Rocks) (p q : Prog α) (H : Prop) : Prop :=
  ∃ a, q.run s = (s, .ok a) ∧ (H → p.run s = (s, dsErr)) ∧ (¬ H → p.run s = (s, .ok a))

namespace Ref

theorem same {p q : Prog α} {a : α} (hp : p.run s = (s, .ok a)) (hq : q.run s = (s, .ok a)) : Ref s p q False :=
  ⟨a, hq, False.elim, fun _ => hp⟩

theorem iff {p q : Prog α} {H H' : Prop} (h : Ref s p q H) (e : H ↔ H') : Ref s p q H' := propext e ▸ h

theorem bind {p q : Prog α} {H K : Prop} (h : Ref s p q H) {f f' : α → Prog β} (hf : ∀ a, Ref s (f a) (f' a) K) :
    Ref s (p >>= f) (q >>= f') (H ∨ K) := by
  obtain ⟨a, h1, h2, h3⟩ := h
  obtain ⟨b, k1, k2, k3⟩ := hf a
  refine ⟨b, by rw [run_bind_ok h1]; exact k1, fun h => ?_, fun h => ?_⟩
  · by_cases hH : H
    · rw [run_bind_error (h2 hH)]
    · rw [run_bind_ok (h3 hH)]; exact k2 (h.resolve_left hH)
  · rw [run_bind_ok (h3 (fun x => h (.inl x)))]; exact k3 (fun x => h (.inr x))

theorem run_assoc {γ : Type} (p : Prog α) (f : α → Prog β) (g : β → Prog γ) : ((p >>= f) >>= g).run s = (p >>= fun a => f a >>= g).run s := by
  simp only [run_bind]
  cases p.run s with
  | mk a b => cases b <;> rfl

theorem bind2 {γ : Type} {p q : Prog α} {f f' : α → Prog β} {H K : Prop} (h : Ref s (p >>= f) (q >>= f') H) {g g' : β → Prog γ}
    (hg : ∀ a, Ref s (g a) (g' a) K) : Ref s (p >>= fun a => f a >>= g) (q >>= fun a => f' a >>= g') (H ∨ K) := by
  have := h.bind hg
  unfold Ref at this ⊢
  rwa [run_assoc, run_assoc] at this

theorem pure (a : α) : Ref s (Pure.pure a) (Pure.pure a) False := same rfl rfl

theorem map {p q : Prog α} {H : Prop} (h : Ref s p q H) (f : α → β) : Ref s (p >>= fun a => Pure.pure (f a)) (q >>= fun a => Pure.pure (f a)) H :=
  (h.bind (fun a => pure (f a))).iff (by simp)

theorem forAll {f f' : α → Prog Batch} {H : α → Prop} : ∀ {l : List α}, (∀ a ∈ l, Ref s (f a) (f' a) (H a)) →
    Ref s (Prog.forAll f l) (Prog.forAll f' l) (∃ a ∈ l, H a)
  | [], _ => (pure []).iff (by simp)
  | a :: r, h =>
    ((h a List.mem_cons_self).bind (fun b => (forAll (fun x hx => h x (List.mem_cons_of_mem _ hx))).map (b ++ ·))).iff (by simp)

/-- A scan whose entries are read by `g` and by `g'`. -/
theorem items {f f' : β → Prog Batch} {g g' : Bytes × Bytes → Res β} {hid : Bytes × Bytes → Prop} : ∀ {L : List (Bytes × Bytes)},
    (∀ e ∈ L, ∃ x, g' e = .ok x ∧ (hid e → g e = dsErr) ∧ (¬ hid e → g e = .ok x) ∧ ∃ H, Ref s (f x) (f' x) H ∧ (H → hid e)) →
    Ref s (forItems f (mapItems g (L.map .ok))) (forItems f' (mapItems g' (L.map .ok))) (∃ e ∈ L, hid e)
  | [], _ => (pure []).iff (by simp)
  | e :: L, h => by
    obtain ⟨x, h1, h2, h3, H, h4, h5⟩ := h e List.mem_cons_self
    obtain ⟨b, i1, i2, i3⟩ := items (fun e he => h e (List.mem_cons_of_mem _ he))
    obtain ⟨c, j1, j2, j3⟩ := h4
    have e1 : mapItems g' ((e :: L).map .ok) = .ok x :: mapItems g' (L.map .ok) := by
      simp only [mapItems, List.map_cons]
      congr 1
    refine ⟨c ++ b, ?_, fun hh => ?_, fun hh => ?_⟩
    · rw [e1]
      simp only [forItems]
      rw [run_bind_ok j1, run_bind_ok i1]; rfl
    · by_cases hx : hid e
      · have : mapItems g ((e :: L).map .ok) = dsErr :: mapItems g (L.map .ok) := by
          simp only [mapItems, List.map_cons]
          congr 1
          exact h2 hx
        rw [this]; rfl
      · have : mapItems g ((e :: L).map .ok) = .ok x :: mapItems g (L.map .ok) := by
          simp only [mapItems, List.map_cons]
          congr 1
          exact h3 hx
        rw [this]
        simp only [forItems]
        rw [run_bind_ok (j3 (fun y => hx (h5 y)))]
        obtain ⟨e', he', hh⟩ := hh
        rcases List.mem_cons.1 he' with rfl | he'
        · exact absurd hh hx
        · rw [run_bind_error (i2 ⟨e', he', hh⟩)]
    · have hx : ¬ hid e := fun y => hh ⟨e, List.mem_cons_self, y⟩
      have : mapItems g ((e :: L).map .ok) = .ok x :: mapItems g (L.map .ok) := by
        simp only [mapItems, List.map_cons]
        congr 1
        exact h3 hx
      rw [this]
      simp only [forItems]
      rw [run_bind_ok (j3 (fun y => hx (h5 y))), run_bind_ok (i3 (fun ⟨e', he', y⟩ => hh ⟨e', List.mem_cons_of_mem _ he', y⟩))]
      rfl

theorem collected {g g' : Bytes × Bytes → Res β} {hid : Bytes × Bytes → Prop} : ∀ {L : List (Bytes × Bytes)},
    (∀ e ∈ L, ∃ x, g' e = .ok x ∧ (hid e → g e = dsErr) ∧ (¬ hid e → g e = .ok x)) →
    Ref s (lift (collect (mapItems g (L.map .ok)))) (lift (collect (mapItems g' (L.map .ok)))) (∃ e ∈ L, hid e)
  | [], _ => (pure []).iff (by simp)
  | e :: L, h => by
    obtain ⟨x, h1, h2, h3⟩ := h e List.mem_cons_self
    have ih := collected (fun e he => h e (List.mem_cons_of_mem _ he))
    have e1 : mapItems g' ((e :: L).map .ok) = .ok x :: mapItems g' (L.map .ok) := by
      simp only [mapItems, List.map_cons]
      congr 1
    rw [e1, Strict.lift_collect_cons]
    by_cases hx : hid e
    · have e2 : mapItems g ((e :: L).map .ok) = dsErr :: mapItems g (L.map .ok) := by
        simp only [mapItems, List.map_cons]
        congr 1
        exact h2 hx
      rw [e2]
      obtain ⟨b, i1, _⟩ := ih
      exact ⟨x :: b, run_bind_ok i1, fun _ => rfl, fun hh => absurd ⟨e, List.mem_cons_self, hx⟩ hh⟩
    · have e2 : mapItems g ((e :: L).map .ok) = .ok x :: mapItems g (L.map .ok) := by
        simp only [mapItems, List.map_cons]
        congr 1
        exact h3 hx
      rw [e2, Strict.lift_collect_cons]
      refine (ih.map (x :: ·)).iff ?_
      simp [hx]

end Ref
end Prog

namespace Rocks
open Prog
variable {X : Cfg} {d : Bytes → Option Json} {z₀ : {s : Rocks // Inv (X.reading d) s}} (hd : X.Reader d) (s : Rocks)

section
include hd

theorem fromSlice_ref (b : Bytes) : ∃ x, fromSlice (X.reading d) b = .ok x ∧ (X.codec.dec b = none → fromSlice X b = .error ioFault) ∧
    (¬ X.codec.dec b = none → fromSlice X b = .ok x) := by
  obtain ⟨x, hx⟩ := hd.total b
  refine ⟨x, ?_, fun h => ?_, fun h => ?_⟩
  · show (match d b with
      | some v => _
      | none => _) = _
    rw [hx]
  · unfold fromSlice; rw [h]; rfl
  · obtain ⟨y, hy⟩ := Option.ne_none_iff_exists'.1 h
    have := hd.same b y hy
    rw [hx] at this; cases this
    unfold fromSlice; rw [hy]

theorem vpGet_ref (id : Uuid) (n : Identifier) : Ref s (vpGet X id n) (vpGet (X.reading d) id n) (HiddenV X s id n) := by
  unfold Ref vpGet
  cases h : (s.kv .vertexProperties).get (vpKey X id n) with
  | none =>
    have h' : (s.kv .vertexProperties).get (vpKey (X.reading d) id n) = none := h
    refine ⟨none, ?_, ?_, ?_⟩
    · rw [run_bind_ok (run_getCf _ _ _), h']; rfl
    · rintro ⟨b, hb, _⟩; rw [h] at hb; cases hb
    · intro _; rw [run_bind_ok (run_getCf _ _ _), h]; rfl
  | some b =>
    have h' : (s.kv .vertexProperties).get (vpKey (X.reading d) id n) = some b := h
    obtain ⟨x, h1, h2, h3⟩ := fromSlice_ref hd b
    refine ⟨some x, ?_, ?_, ?_⟩
    · rw [run_bind_ok (run_getCf _ _ _), h']
      simp only
      rw [h1]; rfl
    · rintro ⟨b', hb, hn⟩
      rw [h] at hb; cases hb
      rw [run_bind_ok (run_getCf _ _ _), h]
      simp only
      rw [h2 hn]; rfl
    · intro hn
      rw [run_bind_ok (run_getCf _ _ _), h]
      simp only
      rw [h3 (fun y => hn ⟨b, h, y⟩)]; rfl

theorem epGet_ref (e : Edge) (n : Identifier) : Ref s (epGet X e n) (epGet (X.reading d) e n) (HiddenE X s e n) := by
  unfold Ref epGet
  cases h : (s.kv .edgeProperties).get (epKey X e n) with
  | none =>
    have h' : (s.kv .edgeProperties).get (epKey (X.reading d) e n) = none := h
    refine ⟨none, ?_, ?_, ?_⟩
    · rw [run_bind_ok (run_getCf _ _ _), h']; rfl
    · rintro ⟨b, hb, _⟩; rw [h] at hb; cases hb
    · intro _; rw [run_bind_ok (run_getCf _ _ _), h]; rfl
  | some b =>
    have h' : (s.kv .edgeProperties).get (epKey (X.reading d) e n) = some b := h
    obtain ⟨x, h1, h2, h3⟩ := fromSlice_ref hd b
    refine ⟨some x, ?_, ?_, ?_⟩
    · rw [run_bind_ok (run_getCf _ _ _), h']
      simp only
      rw [h1]; rfl
    · rintro ⟨b', hb, hn⟩
      rw [h] at hb; cases hb
      rw [run_bind_ok (run_getCf _ _ _), h]
      simp only
      rw [h2 hn]; rfl
    · intro hn
      rw [run_bind_ok (run_getCf _ _ _), h]
      simp only
      rw [h3 (fun y => hn ⟨b, h, y⟩)]; rfl

theorem vpDelete_ref (ix : SSet Identifier) (id : Uuid) (n : Identifier) :
    Ref s (vpDelete X ix id n) (vpDelete (X.reading d) ix id n) (ix.contains n = true ∧ HiddenV X s id n) := by
  unfold vpDelete
  by_cases h : ix.contains n = true
  · simp only [h, if_true]
    exact Ref.map (((vpGet_ref hd s id n).bind (K := False) (fun r => by cases r <;> exact Ref.pure _)).iff (by simp)) _
  · simp only [h]
    exact ((Ref.pure _).map _).iff (by simp)

theorem epDelete_ref (ix : SSet Identifier) (e : Edge) (n : Identifier) :
    Ref s (epDelete X ix e n) (epDelete (X.reading d) ix e n) (ix.contains n = true ∧ HiddenE X s e n) := by
  unfold epDelete
  by_cases h : ix.contains n = true
  · simp only [h, if_true]
    exact Ref.map (((epGet_ref hd s e n).bind (K := False) (fun r => by cases r <;> exact Ref.pure _)).iff (by simp)) _
  · simp only [h]
    exact ((Ref.pure _).map _).iff (by simp)

theorem vpSet_ref (ix : SSet Identifier) (id : Uuid) (n : Identifier) (v : Json) :
    Ref s (vpSet X ix id n v) (vpSet (X.reading d) ix id n v) (ix.contains n = true ∧ HiddenV X s id n) := by
  unfold vpSet
  by_cases h : ix.contains n = true
  · simp only [h, if_true]
    exact ((vpDelete_ref hd s ix id n).map _).iff (by simp [h])
  · simp only [h]
    exact ((Ref.pure _).map _).iff (by simp)

theorem epSet_ref (ix : SSet Identifier) (e : Edge) (n : Identifier) (v : Json) :
    Ref s (epSet X ix e n v) (epSet (X.reading d) ix e n v) (ix.contains n = true ∧ HiddenE X s e n) := by
  unfold epSet
  by_cases h : ix.contains n = true
  · simp only [h, if_true]
    exact ((epDelete_ref hd s ix e n).map _).iff (by simp [h])
  · simp only [h]
    exact ((Ref.pure _).map _).iff (by simp)

omit hd in
theorem wf_reading {kv : KV} (h : Wf (X.reading d) kv) : Wf X kv := ⟨h.vertices, h.edges, h.reversed, h.mirror, h.vprops, h.eprops, h.vindex, h.eindex⟩

/-- Items of a vertex, read by both. -/
theorem vpItems (hw : Wf X s.kv) (id : Uuid) : ∀ e ∈ (s.kv .vertexProperties).toList.filter (fun e => id.bytes.isPrefixOf e.1),
    ∃ n x, e.1 = vpKey X id n ∧ (s.kv .vertexProperties).get (vpKey X id n) = some e.2 ∧ vpItem (X.reading d) id e = .ok (id, n, x) ∧
      (X.codec.dec e.2 = none → vpItem X id e = .error ioFault) ∧ (¬ X.codec.dec e.2 = none → vpItem X id e = .ok (id, n, x)) := by
  intro e he
  obtain ⟨h1, h2⟩ := mem_prefix.1 he
  obtain ⟨id', n, hk⟩ := hw.vprops _ _ h1
  rw [hk, vpKey_eq, uuid_prefix] at h2
  subst h2
  obtain ⟨x, k1, k2, k3⟩ := fromSlice_ref hd e.2
  have step : ∀ Y : Cfg, Y.H = X.H → vpItem Y id e = (fromSlice Y e.2).map (fun v => (id, n, v)) := by
    intro Y hY
    have : e = (vpKey Y id n, e.2) := Prod.ext (by rw [hk]; simp [vpKey, hY]) rfl
    rw [this]
    cases hf : fromSlice Y e.2 <;>
    simp [vpItem, vpKey_eq, readUuid_append, readRest_self, Bind.bind, Except.bind, Pure.pure, Except.pure, debugAssert_true, hf, Except.map]
  refine ⟨n, x, hk, hk ▸ h1, ?_, fun h => ?_, fun h => ?_⟩
  · rw [step (X.reading d) rfl, k1]; rfl
  · rw [step X rfl, k2 h]; rfl
  · rw [step X rfl, k3 h]; rfl

theorem epItems (hw : Wf X s.kv) (f : Edge) : ∀ e ∈ (s.kv .edgeProperties).toList.filter (fun e => (edgeKey X f).isPrefixOf e.1),
    ∃ n x, e.1 = epKey X f n ∧ (s.kv .edgeProperties).get (epKey X f n) = some e.2 ∧ epItem (X.reading d) f e = .ok (f, n, x) ∧
      (X.codec.dec e.2 = none → epItem X f e = .error ioFault) ∧ (¬ X.codec.dec e.2 = none → epItem X f e = .ok (f, n, x)) := by
  intro e he
  obtain ⟨h1, h2⟩ := mem_prefix.1 he
  obtain ⟨f', n, hk⟩ := hw.eprops _ _ h1
  rw [hk, epKey_eq, edge_prefix] at h2
  subst h2
  obtain ⟨x, k1, k2, k3⟩ := fromSlice_ref hd e.2
  have step : ∀ Y : Cfg, Y.H = X.H → epItem Y f e = (fromSlice Y e.2).map (fun v => (f, n, v)) := by
    intro Y hY
    have : e = (epKey Y f n, e.2) := Prod.ext (by rw [hk]; simp [epKey, hY]) rfl
    rw [this]
    cases hf : fromSlice Y e.2 <;>
    simp [epItem, epKey_eq, edgeKey_eq, readUuid_append, readIdentifier_append, readRest_self, Bind.bind, Except.bind,
      Pure.pure, Except.pure, debugAssert_true, hf, Except.map]
  refine ⟨n, x, hk, hk ▸ h1, ?_, fun h => ?_, fun h => ?_⟩
  · rw [step (X.reading d) rfl, k1]; rfl
  · rw [step X rfl, k2 h]; rfl
  · rw [step X rfl, k3 h]; rfl

/-- Running a scan of the properties of a vertex. -/
theorem vpIterate_scan (Y : Cfg) {α : Type} (id : Uuid) (k : DynIter (Uuid × Identifier × Json) → Prog α) :
    (vpIterate Y id >>= k).run s =
      (k (mapItems (vpItem Y id) (((s.kv .vertexProperties).toList.filter (fun e => id.bytes.isPrefixOf e.1)).map .ok))).run s := by
  have hb : build Y.H [.uuid id] = id.bytes := by simp [build_cons]
  have : (vpIterate Y id).run s =
      (s, .ok (mapItems (vpItem Y id) (((s.kv .vertexProperties).toList.filter (fun e => id.bytes.isPrefixOf e.1)).map .ok))) := by
    unfold vpIterate
    rw [run_bind_ok (run_iteratorCf _ _ _), run_pure, hb, takeWithPrefix_eq]
  rw [run_bind_ok this]

theorem epIterate_scan (Y : Cfg) {α : Type} (f : Edge) (k : DynIter (Edge × Identifier × Json) → Prog α) :
    (epIterate Y f >>= k).run s =
      (k (mapItems (epItem Y f) (((s.kv .edgeProperties).toList.filter (fun e => (edgeKey Y f).isPrefixOf e.1)).map .ok))).run s := by
  have hb : build Y.H [.uuid f.outboundId, .identifier f.t, .uuid f.inboundId] = edgeKey Y f := rfl
  have : (epIterate Y f).run s =
      (s, .ok (mapItems (epItem Y f) (((s.kv .edgeProperties).toList.filter (fun e => (edgeKey Y f).isPrefixOf e.1)).map .ok))) := by
    unfold epIterate
    rw [run_bind_ok (run_iteratorCf _ _ _), run_pure, hb, takeWithPrefix_eq]
  rw [run_bind_ok this]

omit hd in
theorem hiddenV_iff (hw : Wf X s.kv) (id : Uuid) : (∃ e ∈ (s.kv .vertexProperties).toList.filter (fun e => id.bytes.isPrefixOf e.1),
    X.codec.dec e.2 = none) ↔ ∃ n, HiddenV X s id n := by
  constructor
  · rintro ⟨e, he, h⟩
    obtain ⟨h1, h2⟩ := mem_prefix.1 he
    obtain ⟨id', n, hk⟩ := hw.vprops _ _ h1
    rw [hk, vpKey_eq, uuid_prefix] at h2
    subst h2
    exact ⟨n, e.2, hk ▸ h1, h⟩
  · rintro ⟨n, b, hb, h⟩
    exact ⟨(vpKey X id n, b), mem_prefix.2 ⟨hb, by rw [vpKey_eq, uuid_prefix]⟩, h⟩

omit hd in
theorem hiddenE_iff (hw : Wf X s.kv) (f : Edge) : (∃ e ∈ (s.kv .edgeProperties).toList.filter (fun e => (edgeKey X f).isPrefixOf e.1),
    X.codec.dec e.2 = none) ↔ ∃ n, HiddenE X s f n := by
  constructor
  · rintro ⟨e, he, h⟩
    obtain ⟨h1, h2⟩ := mem_prefix.1 he
    obtain ⟨f', n, hk⟩ := hw.eprops _ _ h1
    rw [hk, epKey_eq, edge_prefix] at h2
    subst h2
    exact ⟨n, e.2, hk ▸ h1, h⟩
  · rintro ⟨n, b, hb, h⟩
    exact ⟨(epKey X f n, b), mem_prefix.2 ⟨hb, by rw [epKey_eq, edge_prefix]⟩, h⟩

theorem vpLoop_ref (hw : Wf X s.kv) (ix : SSet Identifier) (id : Uuid) :
    Ref s (vpIterate X id >>= forItems (fun p => vpDelete X ix p.1 p.2.1))
      (vpIterate (X.reading d) id >>= forItems (fun p => vpDelete (X.reading d) ix p.1 p.2.1)) (∃ n, HiddenV X s id n) := by
  unfold Ref
  rw [vpIterate_scan hd, vpIterate_scan hd]
  refine Ref.iff (Ref.items (hid := fun e => X.codec.dec e.2 = none) ?_) (hiddenV_iff s hw id)
  intro e he
  obtain ⟨n, x, _, h2, h3, h4, h5⟩ := vpItems hd s hw id e he
  refine ⟨(id, n, x), h3, h4, h5, _, vpDelete_ref hd s ix id n, ?_⟩
  rintro ⟨_, b, hb, h⟩
  rw [h2] at hb; cases hb; exact h

theorem epLoop_ref (hw : Wf X s.kv) (ix : SSet Identifier) (f : Edge) :
    Ref s (epIterate X f >>= forItems (fun p => epDelete X ix p.1 p.2.1))
      (epIterate (X.reading d) f >>= forItems (fun p => epDelete (X.reading d) ix p.1 p.2.1)) (∃ n, HiddenE X s f n) := by
  unfold Ref
  rw [epIterate_scan hd, epIterate_scan hd]
  refine Ref.iff (Ref.items (hid := fun e => X.codec.dec e.2 = none) ?_) (hiddenE_iff s hw f)
  intro e he
  obtain ⟨n, x, _, h2, h3, h4, h5⟩ := epItems hd s hw f e he
  refine ⟨(f, n, x), h3, h4, h5, _, epDelete_ref hd s ix f n, ?_⟩
  rintro ⟨_, b, hb, h⟩
  rw [h2] at hb; cases hb; exact h

theorem vpAll_ref (hw : Wf X s.kv) (id : Uuid) :
    Ref s (propItems (vpIterate X id)) (propItems (vpIterate (X.reading d) id)) (∃ n, HiddenV X s id n) := by
  unfold propItems Ref
  rw [vpIterate_scan hd, vpIterate_scan hd]
  refine Ref.iff (Ref.map (Ref.collected (hid := fun e => X.codec.dec e.2 = none) ?_) _) (hiddenV_iff s hw id)
  intro e he
  obtain ⟨n, x, _, h2, h3, h4, h5⟩ := vpItems hd s hw id e he
  exact ⟨(id, n, x), h3, h4, h5⟩

theorem epAll_ref (hw : Wf X s.kv) (f : Edge) :
    Ref s (propItems (epIterate X f)) (propItems (epIterate (X.reading d) f)) (∃ n, HiddenE X s f n) := by
  unfold propItems Ref
  rw [epIterate_scan hd, epIterate_scan hd]
  refine Ref.iff (Ref.map (Ref.collected (hid := fun e => X.codec.dec e.2 = none) ?_) _) (hiddenE_iff s hw f)
  intro e he
  obtain ⟨n, x, _, h2, h3, h4, h5⟩ := epItems hd s hw f e he
  exact ⟨(f, n, x), h3, h4, h5⟩

theorem edgeDelete_ref (hw : Wf X s.kv) (ix : SSet Identifier) (f : Edge) :
    Ref s (edgeDelete X ix f) (edgeDelete (X.reading d) ix f) (∃ n, HiddenE X s f n) := by
  exact ((epLoop_ref hd s hw ix f).bind2 (K := False) (fun b => Ref.pure _)).iff (by simp)

theorem edgesDelete_ref (hw : Wf X s.kv) (ix : SSet Identifier) (id : Uuid) (cf : CF)
    (hm : ∀ k v, (s.kv cf).get k = some v → ∃ e, k = edgeKey X e) :
    Ref s (edgeIterateRoot X cf id >>= forItems (fun e => do
        Prog.lift (debugAssert X (e.outboundId = id))
        edgeDelete X ix e))
      (edgeIterateRoot (X.reading d) cf id >>= forItems (fun e => do
        Prog.lift (debugAssert (X.reading d) (e.outboundId = id))
        edgeDelete (X.reading d) ix e))
      (∃ f, (s.kv cf).contains (edgeKey X f) = true ∧ f.outboundId = id ∧ ∃ n, HiddenE X s f n) := by
  obtain ⟨l, h1, h2⟩ := edgeIterateRoot_run (X := X) cf id s hm
  have h1' : (edgeIterateRoot (X.reading d) cf id).run s = (s, .ok (l.map .ok)) := h1
  unfold Ref
  rw [run_bind_ok h1, run_bind_ok h1', forItems_ok, forItems_ok]
  refine (Ref.forAll (H := fun f => ∃ n, HiddenE X s f n) (fun f hf => ?_)).iff ?_
  · have hx := ((h2 f).1 hf).2
    unfold Ref
    have a1 : (Prog.lift (debugAssert X (decide (f.outboundId = id)))).run s = (s, .ok ()) := by
      rw [debugAssert_true _ (by simp [hx])]; rfl
    have a2 : (Prog.lift (debugAssert (X.reading d) (decide (f.outboundId = id)))).run s = (s, .ok ()) := by
      rw [debugAssert_true _ (by simp [hx])]; rfl
    rw [run_bind_ok a1, run_bind_ok a2]
    exact edgeDelete_ref hd s hw ix f
  · simp only [h2, and_assoc]

theorem vertexDelete_ref (hw : Wf X s.kv) (ix : SSet Identifier) (id : Uuid) :
    Ref s (vertexDelete X ix id) (vertexDelete (X.reading d) ix id) (HiddenAround X s id) := by
  have h1 := vpLoop_ref hd s hw ix id
  have h2 := edgesDelete_ref hd s hw ix id .edgeRanges hw.edges
  have h3 := edgesDelete_ref hd s hw ix id .reversedEdgeRanges hw.reversed
  refine (h1.bind2 (fun b1 => h2.bind2 (fun b2 => h3.bind2 (K := False) (fun b3 => Ref.pure _)))).iff ?_
  unfold HiddenAround
  refine or_congr_right ⟨?_, ?_⟩
  · rintro (⟨f, hf, ho, hn⟩ | ⟨f, hf, ho, hn⟩ | h)
    · exact ⟨f, ho, .inl hf, hn⟩
    · rw [hw.mirror] at hf; exact ⟨f, ho, .inr hf, hn⟩
    · exact h.elim
  · rintro ⟨f, ho, hf | hf, hn⟩
    · exact .inl ⟨f, hf, ho, hn⟩
    · exact .inr (.inl ⟨f, by rw [hw.mirror]; exact hf, ho, hn⟩)

/-- `p` is refused if `H`, and else does what `q` does. -/
def _root_.IndraDB.Prog.RefW {α : Type} (s : Rocks) (p q : Prog α) (H : Prop) : Prop :=
  (H → p.run s = (s, .error ioFault)) ∧ (¬ H → p.run s = q.run s)

omit hd in
theorem locked_ref {f f' : SSet Identifier → Prog Batch} {H : Prop} (h : Ref s (f s.indexed) (f' s.indexed) H) :
    RefW s (locked f) (locked f') H := by
  obtain ⟨b, h1, h2, h3⟩ := h
  unfold locked RefW
  rw [run_readLock, run_readLock]
  refine ⟨fun hH => ?_, fun hH => ?_⟩
  · rw [run_bind_error (h2 hH)]
  · rw [run_bind_ok (h3 hH), run_bind_ok h1]

theorem deleteVertices_ref (hw : Wf X s.kv) (vs : List Vertex) :
    RefW s (deleteVertices X vs) (deleteVertices (X.reading d) vs) (∃ v ∈ vs, HiddenAround X s v.id) :=
  locked_ref s (Ref.forAll (fun v _ => vertexDelete_ref hd s hw _ v.id))

theorem deleteEdges_ref (hw : Wf X s.kv) (es : List Edge) :
    RefW s (deleteEdges X es) (deleteEdges (X.reading d) es)
      (∃ e ∈ es, (graph X s).vertex e.outboundId ≠ none ∧ ∃ n, HiddenE X s e n) := by
  refine locked_ref s (Ref.forAll (fun e _ => ?_))
  have h1 := vertexGet_run (X := X) e.outboundId s hw
  have h2 : (vertexGet (X.reading d) e.outboundId).run s = (s, .ok ((graph X s).vertex e.outboundId)) := h1
  unfold Ref
  rw [run_bind_ok h1, run_bind_ok h2]
  cases hv : (graph X s).vertex e.outboundId with
  | none => exact (Ref.pure _).iff (by simp)
  | some t => exact (edgeDelete_ref hd s hw _ e).iff (by simp)

theorem deleteVertexProperties_ref (ps : List (Uuid × Identifier)) :
    RefW s (deleteVertexProperties X ps) (deleteVertexProperties (X.reading d) ps)
      (∃ p ∈ ps, s.indexed.contains p.2 = true ∧ HiddenV X s p.1 p.2) :=
  locked_ref s (Ref.forAll (fun p _ => vpDelete_ref hd s _ p.1 p.2))

theorem deleteEdgeProperties_ref (ps : List (Edge × Identifier)) :
    RefW s (deleteEdgeProperties X ps) (deleteEdgeProperties (X.reading d) ps)
      (∃ p ∈ ps, s.indexed.contains p.2 = true ∧ HiddenE X s p.1 p.2) :=
  locked_ref s (Ref.forAll (fun p _ => epDelete_ref hd s _ p.1 p.2))

theorem setVertexProperties_ref (ids : List Uuid) (n : Identifier) (v : Json) :
    RefW s (setVertexProperties X ids n v) (setVertexProperties (X.reading d) ids n v)
      (s.indexed.contains n = true ∧ ∃ id ∈ ids, HiddenV X s id n) := by
  have := locked_ref s (f := fun ix => Prog.forAll (fun id => vpSet X ix id n v) ids)
    (f' := fun ix => Prog.forAll (fun id => vpSet (X.reading d) ix id n v) ids) (Ref.forAll (fun id _ => vpSet_ref hd s _ id n v))
  refine ⟨fun h => this.1 ?_, fun h => this.2 ?_⟩
  · obtain ⟨h1, i, h2, h3⟩ := h; exact ⟨i, h2, h1, h3⟩
  · rintro ⟨i, h2, h1, h3⟩; exact h ⟨h1, i, h2, h3⟩

theorem setEdgeProperties_ref (es : List Edge) (n : Identifier) (v : Json) :
    RefW s (setEdgeProperties X es n v) (setEdgeProperties (X.reading d) es n v)
      (s.indexed.contains n = true ∧ ∃ e ∈ es, HiddenE X s e n) := by
  have := locked_ref s (f := fun ix => Prog.forAll (fun e => epSet X ix e n v) es)
    (f' := fun ix => Prog.forAll (fun e => epSet (X.reading d) ix e n v) es) (Ref.forAll (fun e _ => epSet_ref hd s _ e n v))
  refine ⟨fun h => this.1 ?_, fun h => this.2 ?_⟩
  · obtain ⟨h1, i, h2, h3⟩ := h; exact ⟨i, h2, h1, h3⟩
  · rintro ⟨i, h2, h1, h3⟩; exact h ⟨h1, i, h2, h3⟩

theorem bulkInsert_ref (items : List BulkInsertItem) :
    RefW s (bulkInsert X items) (bulkInsert (X.reading d) items) (∃ i ∈ items, i.Blocked X s) := by
  refine locked_ref s (Ref.forAll (fun i _ => ?_))
  cases i with
  | vertex v => exact Ref.pure _
  | edge e =>
    obtain ⟨b, hb, _⟩ := edgeSet_run (X := X) s e
    exact Ref.same hb hb
  | vertexProperty id n v => exact vpSet_ref hd s _ id n v
  | edgeProperty e n v => exact epSet_ref hd s _ e n v

theorem indexProperty_ref (hw : Wf X s.kv) (O : IdentOrder) (n : Identifier) :
    (s.indexed.contains n = false → HiddenOwner X s n →
      (indexProperty X O n).run s = ({ s with indexed := s.indexed.add n }, .error ioFault)) ∧
    (s.indexed.contains n = true ∨ ¬ HiddenOwner X s n → (indexProperty X O n).run s = (indexProperty (X.reading d) O n).run s) := by
  cases hx : s.indexed.contains n with
  | true =>
    refine ⟨fun h => (nomatch h), fun _ => ?_⟩
    unfold indexProperty
    rw [run_writeLock, run_writeLock]
    simp only [hx, if_true]
  | false =>
    have key : ∀ Y : Cfg, (indexProperty Y O n).run s = ((do
        let b := setIndexedBatch O (s.indexed.add n)
        let b1 ← Prog.forItems (fun v : Vertex => do
          match ← vpGet Y v.id n with
          | some x => return vpvSet Y v.id n x
          | none => return []) (← vertexIterate Y Uuid.nil)
        let b2 ← Prog.forItems (fun e : Edge => do
          match ← epGet Y e n with
          | some x => return epvSet Y e n x
          | none => return []) (← edgeIterateAll .edgeRanges)
        Prog.writeBatch (b ++ b1 ++ b2) : Prog Unit)).run { s with indexed := s.indexed.add n } := by
      intro Y
      unfold indexProperty
      rw [run_writeLock]
      simp only [hx, Bool.false_eq_true, if_false]
      rfl
    generalize hs : ({ s with indexed := s.indexed.add n } : Rocks) = s' at key ⊢
    have hw' : Wf X s'.kv := hs ▸ hw
    have l1 : Ref s' (vertexIterate X Uuid.nil >>= Prog.forItems (fun v : Vertex => do
          match ← vpGet X v.id n with
          | some x => return vpvSet X v.id n x
          | none => return []))
        (vertexIterate (X.reading d) Uuid.nil >>= Prog.forItems (fun v : Vertex => do
          match ← vpGet (X.reading d) v.id n with
          | some x => return vpvSet (X.reading d) v.id n x
          | none => return [])) (∃ id, (graph X s).vertex id ≠ none ∧ HiddenV X s id n) := by
      have r1 := vertexIterate_run (X := X) Uuid.nil s' hw'
      have r2 : (vertexIterate (X.reading d) Uuid.nil).run s' = _ := r1
      have hm := (vertexList_enum (X := X) s' hw' Uuid.nil).mem
      unfold Ref
      rw [run_bind_ok r1, run_bind_ok r2, forItems_ok, forItems_ok]
      refine (Ref.forAll (H := fun v : Vertex => HiddenV X s' v.id n) (fun v _ =>
        ((vpGet_ref hd s' v.id n).bind (K := False) (fun r => by cases r <;> exact Ref.pure _)).iff (by simp))).iff ?_
      subst hs
      constructor
      · rintro ⟨v, hv, h⟩
        exact ⟨v.id, by have := ((hm v).1 hv).1; rw [show (graph X s).vertex v.id = _ from this]; simp, h⟩
      · rintro ⟨id, hv, h⟩
        obtain ⟨t, ht⟩ := Option.ne_none_iff_exists'.1 hv
        exact ⟨⟨id, t⟩, (hm ⟨id, t⟩).2 ⟨ht, Uuid.not_lt_nil _⟩, h⟩
    have l2 : Ref s' (edgeIterateAll .edgeRanges >>= Prog.forItems (fun e : Edge => do
          match ← epGet X e n with
          | some x => return epvSet X e n x
          | none => return []))
        (edgeIterateAll .edgeRanges >>= Prog.forItems (fun e : Edge => do
          match ← epGet (X.reading d) e n with
          | some x => return epvSet (X.reading d) e n x
          | none => return [])) (∃ e, (graph X s).edge e = true ∧ HiddenE X s e n) := by
      obtain ⟨es, r1, hm⟩ := edgeIterateAll_run (X := X) .edgeRanges s' hw'.edges
      unfold Ref
      rw [run_bind_ok r1, run_bind_ok r1, forItems_ok, forItems_ok]
      refine (Ref.forAll (H := fun e : Edge => HiddenE X s' e n) (fun e _ =>
        ((epGet_ref hd s' e n).bind (K := False) (fun r => by cases r <;> exact Ref.pure _)).iff (by simp))).iff ?_
      subst hs
      simp only [hm.mem]
      rfl
    rw [key X, key (X.reading d)]
    have all : Ref s' ((vertexIterate X Uuid.nil >>= Prog.forItems (fun v : Vertex => do
          match ← vpGet X v.id n with
          | some x => return vpvSet X v.id n x
          | none => return [])) >>= fun b1 => (edgeIterateAll .edgeRanges >>= Prog.forItems (fun e : Edge => do
          match ← epGet X e n with
          | some x => return epvSet X e n x
          | none => return [])) >>= fun b2 => (pure (setIndexedBatch O (s.indexed.add n) ++ b1 ++ b2) : Prog Batch))
        ((vertexIterate (X.reading d) Uuid.nil >>= Prog.forItems (fun v : Vertex => do
          match ← vpGet (X.reading d) v.id n with
          | some x => return vpvSet (X.reading d) v.id n x
          | none => return [])) >>= fun b1 => (edgeIterateAll .edgeRanges >>= Prog.forItems (fun e : Edge => do
          match ← epGet (X.reading d) e n with
          | some x => return epvSet (X.reading d) e n x
          | none => return [])) >>= fun b2 => (pure (setIndexedBatch O (s.indexed.add n) ++ b1 ++ b2) : Prog Batch))
        (HiddenOwner X s n) := l1.bind (fun b1 => l2.map _)
    have fin : ∀ Y : Cfg, ((do
        let b := setIndexedBatch O (s.indexed.add n)
        let b1 ← Prog.forItems (fun v : Vertex => do
          match ← vpGet Y v.id n with
          | some x => return vpvSet Y v.id n x
          | none => return []) (← vertexIterate Y Uuid.nil)
        let b2 ← Prog.forItems (fun e : Edge => do
          match ← epGet Y e n with
          | some x => return epvSet Y e n x
          | none => return []) (← edgeIterateAll .edgeRanges)
        Prog.writeBatch (b ++ b1 ++ b2) : Prog Unit)).run s' =
        (((vertexIterate Y Uuid.nil >>= Prog.forItems (fun v : Vertex => do
          match ← vpGet Y v.id n with
          | some x => return vpvSet Y v.id n x
          | none => return [])) >>= fun b1 => (edgeIterateAll .edgeRanges >>= Prog.forItems (fun e : Edge => do
          match ← epGet Y e n with
          | some x => return epvSet Y e n x
          | none => return [])) >>= fun b2 => (pure (setIndexedBatch O (s.indexed.add n) ++ b1 ++ b2) : Prog Batch)) >>= writeBatch).run s' := by
      intro Y
      simp only [Ref.run_assoc, run_bind]
      rcases (vertexIterate Y Uuid.nil).run s' with ⟨a, r | r⟩
      · rfl
      · simp only [run_bind]
        rcases (Prog.forItems (fun v : Vertex => do
          match ← vpGet Y v.id n with
          | some x => return vpvSet Y v.id n x
          | none => return []) r).run a with ⟨a', r' | r'⟩
        · rfl
        · simp only [run_bind]
          rcases (edgeIterateAll .edgeRanges).run a' with ⟨a2, r2 | r2⟩
          · rfl
          · simp only [run_bind]
            rcases (Prog.forItems (fun e : Edge => do
              match ← epGet Y e n with
              | some x => return epvSet Y e n x
              | none => return []) r2).run a2 with ⟨a3, r3 | r3⟩ <;> rfl
    rw [fin X, fin (X.reading d)]
    obtain ⟨b, h1, h2, h3⟩ := all
    refine ⟨fun _ h => run_bind_error (h2 h), fun h => ?_⟩
    rw [run_bind_ok (h3 (h.resolve_left (fun h => nomatch h))), run_bind_ok h1]

theorem ownerV_ref (hw : Wf X s.kv) (v : Vertex) (name : Option Identifier) : ∃ l,
    ownerProps ((reads (X.reading d) s).vertexProperty v) ((reads (X.reading d) s).allVertexPropertiesForVertex v) name = .ok l ∧
    (HidesV X s v.id name → ownerProps ((reads X s).vertexProperty v) ((reads X s).allVertexPropertiesForVertex v) name = .error ioFault) ∧
    (¬ HidesV X s v.id name → ownerProps ((reads X s).vertexProperty v) ((reads X s).allVertexPropertiesForVertex v) name = .ok l) := by
  cases name with
  | some n =>
    obtain ⟨a, h1, h2, h3⟩ := vpGet_ref hd s v.id n
    have g1 : (reads (X.reading d) s).vertexProperty v n = .ok a := congrArg Prod.snd h1
    refine ⟨(match a with | some x => [⟨n, x⟩] | none => []), ?_, fun h => ?_, fun h => ?_⟩
    · simp only [ownerProps, g1, Bind.bind, Except.bind]; cases a <;> rfl
    · have g2 : (reads X s).vertexProperty v n = .error ioFault := congrArg Prod.snd (h2 h)
      simp only [ownerProps, g2, Bind.bind, Except.bind]
    · have g2 : (reads X s).vertexProperty v n = .ok a := congrArg Prod.snd (h3 h)
      simp only [ownerProps, g2, Bind.bind, Except.bind]; cases a <;> rfl
  | none =>
    obtain ⟨a, h1, h2, h3⟩ := vpAll_ref hd s hw v.id
    have g1 : (reads (X.reading d) s).allVertexPropertiesForVertex v = .ok a := congrArg Prod.snd h1
    have ha : ∃ l, collect a = .ok l := by
      have h1 : (propItems (vpIterate (X.reading d) v.id)).run s = (s, .ok a) := h1
      unfold propItems at h1
      rw [vpIterate_scan hd] at h1
      simp only [run_bind, run_lift] at h1
      split at h1
      · rename_i s' l hl
        simp only [run_pure, Prod.mk.injEq, Except.ok.injEq] at h1
        exact ⟨l.map (·.2), by
          rw [← h1.2]
          have := collect_map_ok (l.map (·.2))
          rwa [List.map_map] at this⟩
      · cases h1
    obtain ⟨l, hl⟩ := ha
    refine ⟨l.map (fun p => ⟨p.1, p.2⟩), ?_, fun h => ?_, fun h => ?_⟩
    · simp only [ownerProps, g1, Bind.bind, Except.bind, hl]; rfl
    · have g2 : (reads X s).allVertexPropertiesForVertex v = .error ioFault := congrArg Prod.snd (h2 h)
      simp only [ownerProps, g2, Bind.bind, Except.bind]
    · have g2 : (reads X s).allVertexPropertiesForVertex v = .ok a := congrArg Prod.snd (h3 h)
      simp only [ownerProps, g2, Bind.bind, Except.bind, hl]; rfl

theorem ownerE_ref (hw : Wf X s.kv) (v : Edge) (name : Option Identifier) : ∃ l,
    ownerProps ((reads (X.reading d) s).edgeProperty v) ((reads (X.reading d) s).allEdgePropertiesForEdge v) name = .ok l ∧
    (HidesE X s v name → ownerProps ((reads X s).edgeProperty v) ((reads X s).allEdgePropertiesForEdge v) name = .error ioFault) ∧
    (¬ HidesE X s v name → ownerProps ((reads X s).edgeProperty v) ((reads X s).allEdgePropertiesForEdge v) name = .ok l) := by
  cases name with
  | some n =>
    obtain ⟨a, h1, h2, h3⟩ := epGet_ref hd s v n
    have g1 : (reads (X.reading d) s).edgeProperty v n = .ok a := congrArg Prod.snd h1
    refine ⟨(match a with | some x => [⟨n, x⟩] | none => []), ?_, fun h => ?_, fun h => ?_⟩
    · simp only [ownerProps, g1, Bind.bind, Except.bind]; cases a <;> rfl
    · have g2 : (reads X s).edgeProperty v n = .error ioFault := congrArg Prod.snd (h2 h)
      simp only [ownerProps, g2, Bind.bind, Except.bind]
    · have g2 : (reads X s).edgeProperty v n = .ok a := congrArg Prod.snd (h3 h)
      simp only [ownerProps, g2, Bind.bind, Except.bind]; cases a <;> rfl
  | none =>
    obtain ⟨a, h1, h2, h3⟩ := epAll_ref hd s hw v
    have g1 : (reads (X.reading d) s).allEdgePropertiesForEdge v = .ok a := congrArg Prod.snd h1
    have ha : ∃ l, collect a = .ok l := by
      have h1 : (propItems (epIterate (X.reading d) v)).run s = (s, .ok a) := h1
      unfold propItems at h1
      rw [epIterate_scan hd] at h1
      simp only [run_bind, run_lift] at h1
      split at h1
      · rename_i s' l hl
        simp only [run_pure, Prod.mk.injEq, Except.ok.injEq] at h1
        exact ⟨l.map (·.2), by
          rw [← h1.2]
          have := collect_map_ok (l.map (·.2))
          rwa [List.map_map] at this⟩
      · cases h1
    obtain ⟨l, hl⟩ := ha
    refine ⟨l.map (fun p => ⟨p.1, p.2⟩), ?_, fun h => ?_, fun h => ?_⟩
    · simp only [ownerProps, g1, Bind.bind, Except.bind, hl]; rfl
    · have g2 : (reads X s).allEdgePropertiesForEdge v = .error ioFault := congrArg Prod.snd (h2 h)
      simp only [ownerProps, g2, Bind.bind, Except.bind]
    · have g2 : (reads X s).allEdgePropertiesForEdge v = .ok a := congrArg Prod.snd (h3 h)
      simp only [ownerProps, g2, Bind.bind, Except.bind, hl]; rfl

theorem pipeVertexProps_ref (hw : Wf X s.kv) (name : Option Identifier) : ∀ vs : List Vertex, ∃ l,
    pipeVertexProps (reads (X.reading d) s) name vs = .ok l ∧
    ((∃ v ∈ vs, HidesV X s v.id name) → pipeVertexProps (reads X s) name vs = .error ioFault) ∧
    ((¬ ∃ v ∈ vs, HidesV X s v.id name) → pipeVertexProps (reads X s) name vs = .ok l)
  | [] => ⟨[], rfl, fun h => by simp at h, fun _ => rfl⟩
  | v :: vs => by
    obtain ⟨l, i1, i2, i3⟩ := pipeVertexProps_ref hw name vs
    obtain ⟨a, h1, h2, h3⟩ := ownerV_ref hd s hw v name
    refine ⟨if a.isEmpty then l else ⟨v, a⟩ :: l, ?_, fun h => ?_, fun h => ?_⟩
    · simp only [pipeVertexProps, h1, i1, Bind.bind, Except.bind]; rfl
    · by_cases hv : HidesV X s v.id name
      · simp only [pipeVertexProps, h2 hv, Bind.bind, Except.bind]
      · have : ∃ v ∈ vs, HidesV X s v.id name := by
          obtain ⟨w, hw, h⟩ := h
          rcases List.mem_cons.1 hw with rfl | hw
          · exact absurd h hv
          · exact ⟨w, hw, h⟩
        simp only [pipeVertexProps, h3 hv, i2 this, Bind.bind, Except.bind]
    · have hv : ¬ HidesV X s v.id name := fun y => h ⟨v, List.mem_cons_self, y⟩
      have := i3 (fun ⟨w, hw, y⟩ => h ⟨w, List.mem_cons_of_mem _ hw, y⟩)
      simp only [pipeVertexProps, h3 hv, this, Bind.bind, Except.bind]; rfl

theorem pipeEdgeProps_ref (hw : Wf X s.kv) (name : Option Identifier) : ∀ es : List Edge, ∃ l,
    pipeEdgeProps (reads (X.reading d) s) name es = .ok l ∧
    ((∃ e ∈ es, HidesE X s e name) → pipeEdgeProps (reads X s) name es = .error ioFault) ∧
    ((¬ ∃ e ∈ es, HidesE X s e name) → pipeEdgeProps (reads X s) name es = .ok l)
  | [] => ⟨[], rfl, fun h => by simp at h, fun _ => rfl⟩
  | v :: vs => by
    obtain ⟨l, i1, i2, i3⟩ := pipeEdgeProps_ref hw name vs
    obtain ⟨a, h1, h2, h3⟩ := ownerE_ref hd s hw v name
    refine ⟨if a.isEmpty then l else ⟨v, a⟩ :: l, ?_, fun h => ?_, fun h => ?_⟩
    · simp only [pipeEdgeProps, h1, i1, Bind.bind, Except.bind]; rfl
    · by_cases hv : HidesE X s v name
      · simp only [pipeEdgeProps, h2 hv, Bind.bind, Except.bind]
      · have : ∃ v ∈ vs, HidesE X s v name := by
          obtain ⟨w, hw, h⟩ := h
          rcases List.mem_cons.1 hw with rfl | hw
          · exact absurd h hv
          · exact ⟨w, hw, h⟩
        simp only [pipeEdgeProps, h3 hv, i2 this, Bind.bind, Except.bind]
    · have hv : ¬ HidesE X s v name := fun y => h ⟨v, List.mem_cons_self, y⟩
      have := i3 (fun ⟨w, hw, y⟩ => h ⟨w, List.mem_cons_of_mem _ hw, y⟩)
      simp only [pipeEdgeProps, h3 hv, this, Bind.bind, Except.bind]; rfl

end
end Rocks

namespace Unread
variable {X : Cfg} {d : Bytes → Option Json} {z₀ : {s : Rocks // Inv (X.reading d) s}} (hd : X.Reader d)
include hd

theorem Same.prop {w₀ : Rocks} {s : Rocks} {i : Query} {v : Output} {O : IdentOrder} (h : (rocksStoreAny X d w₀).value O i s = .ok v) (name : Option Identifier) :
    (rocksStoreAny X d w₀).value O (.pipeProperty i name) s = stageProperty (reads X s) name v := by
  rw [value_any] at h ⊢
  rw [eval]; exact value_evalStage h

theorem refused (s : Rocks) (h : (rocksStoreAny X d z₀.1).Reach s) (O : IdentOrder) : RefusedExactly X d s O := by
  have hi := inv hd h
  have hw : Wf X s.kv := wf_reading hi.wf
  have F : Faithful (reads (X.reading d) s) _ _ _ := (conformsFrom (X.reading d) s hi).faithful s (reach s) O
  have spec := fun op => (dbStep_spec (X := X.reading d) O op s hi (okOp hd op)).stepWith
  have hl : ∀ {q v}, (rocksStoreAny X d z₀.1).value O q s = .ok v → lastOutput (reads X s) q = .ok v := by
    intro q v hv
    rw [value_any (X := X) (d := d)] at hv
    rw [lastOutput_eq]; exact hv
  have hl' : ∀ {q v}, (rocksStoreAny X d z₀.1).value O q s = .ok v → lastOutput (reads (X.reading d) s) q = .ok v := by
    intro q v hv
    have hS := same_of_value hd hv
    have := hl hv
    rw [lastOutput_eq] at this ⊢
    rw [← hS]; exact this
  have he' : ∀ {q v}, (rocksStoreAny X d z₀.1).value O q s = .ok v → ∃ inc, eval (reads (X.reading d) s) q = .ok (inc, v) := by
    intro q v hv
    have := hl' hv
    rw [lastOutput_eq] at this
    obtain ⟨⟨inc, w⟩, e, rfl⟩ := map_ok_iff.1 this
    exact ⟨inc, e⟩
  have go : ∀ {p q : Prog Unit} {H : Prop} {op : Op} {g : Graph}, Prog.RefW s p q H →
      Rocks.step X O op s = Upd.map (fun _ => Reply.unit) (p.run s) →
      Rocks.step (X.reading d) O op s = Upd.map (fun _ => Reply.unit) (q.run s) →
      (graph (X.reading d) (Rocks.step (X.reading d) O op s).1 = g ∧ (Rocks.step (X.reading d) O op s).2 = .ok .unit) →
      (H → (rocksStoreAny X d z₀.1).Refuses O op s) ∧ (¬ H → (rocksStoreAny X d z₀.1).Does O op s g) := by
    intro p q H op g hr e1 e2 hg
    refine ⟨fun hH => ?_, fun hH => ?_⟩
    · show Rocks.step X O op s = _
      rw [e1, hr.1 hH]; rfl
    · show (Rocks.step X O op s).2 = _ ∧ graph (X.reading d) (Rocks.step X O op s).1 = g
      have : Rocks.step X O op s = Rocks.step (X.reading d) O op s := by rw [e1, e2, hr.2 hH]
      rw [this]
      exact ⟨hg.2, hg.1⟩
  refine ⟨?_, ?_, ?_, ?_, ?_, ?_, ?_, ?_⟩
  · intro q vs name hv
    rw [Same.prop hd hv]
    obtain ⟨l, h1, h2, h3⟩ := pipeVertexProps_ref hd s hw name vs
    refine ⟨fun hH => ?_, fun hH => ?_⟩
    · simp only [stageProperty, h2 hH]; rfl
    · have hst := stageProperty_spec F name (.vertices vs)
      simp only [PropertyStage] at hst
      rw [if_neg (by simp [conv])] at hst
      obtain ⟨props, hp, he⟩ := hst
      refine ⟨props, hp, ?_⟩
      rw [← he]
      simp only [stageProperty, h3 hH, h1]
  · intro q vs name hv
    rw [Same.prop hd hv]
    obtain ⟨l, h1, h2, h3⟩ := pipeEdgeProps_ref hd s hw name vs
    refine ⟨fun hH => ?_, fun hH => ?_⟩
    · simp only [stageProperty, h2 hH]; rfl
    · obtain ⟨props, hp, he⟩ := stageProperty_spec F name (.edges vs)
      refine ⟨props, hp, ?_⟩
      rw [← he]
      simp only [stageProperty, h3 hH, h1]
  · intro q vs n x hv
    have r := setVertexProperties_ref hd s (vs.map (·.id)) n x
    have e1 : Rocks.step X O (.setProperties q n x) s = Upd.map (fun _ => Reply.unit) ((setVertexProperties X (vs.map (·.id)) n x).run s) := by
      have := hl hv
      show Upd.map _ (dbSetProperties (txn X O) q n x s) = _
      have h' : lastOutput ((txn X O).reads s) q = _ := this
      simp only [dbSetProperties, h']; rfl
    have e2 : Rocks.step (X.reading d) O (.setProperties q n x) s =
        Upd.map (fun _ => Reply.unit) ((setVertexProperties (X.reading d) (vs.map (·.id)) n x).run s) := by
      have := hl' hv
      show Upd.map _ (dbSetProperties (txn (X.reading d) O) q n x s) = _
      have h' : lastOutput ((txn (X.reading d) O).reads s) q = _ := this
      simp only [dbSetProperties, h']; rfl
    have sp := spec (.setProperties q n x)
    obtain ⟨inc, hq⟩ := he' hv
    simp only [StepWith, hq] at sp
    have hm : (∃ id ∈ vs.map (·.id), HiddenV X s id n) ↔ ∃ v ∈ vs, HiddenV X s v.id n := by
      constructor
      · rintro ⟨i, hi, h⟩
        obtain ⟨v, hv, rfl⟩ := List.mem_map.1 hi
        exact ⟨v, hv, h⟩
      · rintro ⟨v, hv, h⟩
        exact ⟨_, List.mem_map.2 ⟨v, hv, rfl⟩, h⟩
    rw [← hm]
    exact go r e1 e2 sp
  · intro q es n x hv
    have r := setEdgeProperties_ref hd s es n x
    have e1 : Rocks.step X O (.setProperties q n x) s = Upd.map (fun _ => Reply.unit) ((setEdgeProperties X es n x).run s) := by
      have := hl hv
      show Upd.map _ (dbSetProperties (txn X O) q n x s) = _
      have h' : lastOutput ((txn X O).reads s) q = _ := this
      simp only [dbSetProperties, h']; rfl
    have e2 : Rocks.step (X.reading d) O (.setProperties q n x) s =
        Upd.map (fun _ => Reply.unit) ((setEdgeProperties (X.reading d) es n x).run s) := by
      have := hl' hv
      show Upd.map _ (dbSetProperties (txn (X.reading d) O) q n x s) = _
      have h' : lastOutput ((txn (X.reading d) O).reads s) q = _ := this
      simp only [dbSetProperties, h']; rfl
    have sp := spec (.setProperties q n x)
    obtain ⟨inc, hq⟩ := he' hv
    simp only [StepWith, hq] at sp
    exact go r e1 e2 sp
  · intro q vs hv
    have r := deleteVertices_ref hd s hw vs
    have e1 : Rocks.step X O (.delete q) s = Upd.map (fun _ => Reply.unit) ((deleteVertices X vs).run s) := by
      have := hl hv
      show Upd.map _ (dbDelete (txn X O) q s) = _
      have h' : lastOutput ((txn X O).reads s) q = _ := this
      simp only [dbDelete, h']; rfl
    have e2 : Rocks.step (X.reading d) O (.delete q) s = Upd.map (fun _ => Reply.unit) ((deleteVertices (X.reading d) vs).run s) := by
      have := hl' hv
      show Upd.map _ (dbDelete (txn (X.reading d) O) q s) = _
      have h' : lastOutput ((txn (X.reading d) O).reads s) q = _ := this
      simp only [dbDelete, h']; rfl
    have sp := spec (.delete q)
    obtain ⟨inc, hq⟩ := he' hv
    simp only [StepWith, hq] at sp
    exact go r e1 e2 sp
  · intro q es hv
    have r := deleteEdges_ref hd s hw es
    have e1 : Rocks.step X O (.delete q) s = Upd.map (fun _ => Reply.unit) ((deleteEdges X es).run s) := by
      have := hl hv
      show Upd.map _ (dbDelete (txn X O) q s) = _
      have h' : lastOutput ((txn X O).reads s) q = _ := this
      simp only [dbDelete, h']; rfl
    have e2 : Rocks.step (X.reading d) O (.delete q) s = Upd.map (fun _ => Reply.unit) ((deleteEdges (X.reading d) es).run s) := by
      have := hl' hv
      show Upd.map _ (dbDelete (txn (X.reading d) O) q s) = _
      have h' : lastOutput ((txn (X.reading d) O).reads s) q = _ := this
      simp only [dbDelete, h']; rfl
    have sp := spec (.delete q)
    obtain ⟨inc, hq⟩ := he' hv
    simp only [StepWith, hq] at sp
    exact go r e1 e2 sp
  · intro items
    exact go (bulkInsert_ref hd s items) rfl rfl (spec (.bulkInsert items))
  · intro n
    have r := indexProperty_ref hd s hw O n
    have sp := spec (.indexProperty n)
    refine ⟨fun hH => ?_, fun hH => ?_⟩
    · show Upd.map (fun _ => Reply.unit) ((indexProperty X O n).run s) = _
      rw [r.1 hH.1 hH.2]; rfl
    · have e : Rocks.step X O (.indexProperty n) s = Rocks.step (X.reading d) O (.indexProperty n) s := by
        show Upd.map (fun _ => Reply.unit) ((indexProperty X O n).run s) = Upd.map (fun _ => Reply.unit) ((indexProperty (X.reading d) O n).run s)
        rw [r.2]
        by_cases hx : s.indexed.contains n = true
        · exact .inl hx
        · exact .inr (fun y => hH ⟨by simpa using hx, y⟩)
      show (Rocks.step X O _ s).2 = _ ∧ graph (X.reading d) (Rocks.step X O _ s).1 = _
      rw [e]
      exact ⟨sp.2, sp.1⟩

/-! ### Deleting properties -/

omit hd in
theorem pipeVertexProps_mem {R : Reads} {name : Option Identifier} : ∀ {vs l}, pipeVertexProps R name vs = .ok l → ∀ p ∈ l,
    p.vertex ∈ vs ∧ ownerProps (R.vertexProperty p.vertex) (R.allVertexPropertiesForVertex p.vertex) name = .ok p.props
  | [], l, h, p, hp => by cases h; cases hp
  | v :: vs, l, h, p, hp => by
    simp only [pipeVertexProps, Bind.bind, Except.bind] at h
    split at h
    · cases h
    · rename_i a ha
      split at h
      · cases h
      · rename_i l' hl'
        have h : (if a.isEmpty then l' else ⟨v, a⟩ :: l') = l := Except.ok.inj h
        have old := fun hp => pipeVertexProps_mem hl' p hp
        have next := fun hp => And.intro (List.mem_cons_of_mem v (old hp).1) (old hp).2
        split at h
        · subst h; exact next hp
        · subst h
          rcases List.mem_cons.1 hp with rfl | hp
          · exact ⟨List.mem_cons_self, ha⟩
          · exact next hp

omit hd in
theorem pipeEdgeProps_mem {R : Reads} {name : Option Identifier} : ∀ {vs l}, pipeEdgeProps R name vs = .ok l → ∀ p ∈ l,
    p.edge ∈ vs ∧ ownerProps (R.edgeProperty p.edge) (R.allEdgePropertiesForEdge p.edge) name = .ok p.props
  | [], l, h, p, hp => by cases h; cases hp
  | v :: vs, l, h, p, hp => by
    simp only [pipeEdgeProps, Bind.bind, Except.bind] at h
    split at h
    · cases h
    · rename_i a ha
      split at h
      · cases h
      · rename_i l' hl'
        have h : (if a.isEmpty then l' else ⟨v, a⟩ :: l') = l := Except.ok.inj h
        have old := fun hp => pipeEdgeProps_mem hl' p hp
        have next := fun hp => And.intro (List.mem_cons_of_mem v (old hp).1) (old hp).2
        split at h
        · subst h; exact next hp
        · subst h
          rcases List.mem_cons.1 hp with rfl | hp
          · exact ⟨List.mem_cons_self, ha⟩
          · exact next hp

omit hd in
theorem ownerProps_name {one : Identifier → Res (Option Json)} {all : Res (DynIter (Identifier × Json))} {n : Identifier} {l : List NamedProperty}
    (h : ownerProps one all (some n) = .ok l) : ∀ x ∈ l, x.name = n := by
  intro x hx
  simp only [ownerProps, Bind.bind, Except.bind] at h
  split at h
  · cases h
  · rename_i o _
    cases o with
    | none => cases h; cases hx
    | some v => cases h; simp only [List.mem_singleton] at hx; rw [hx]

theorem gives {s : Rocks} (h : (rocksStoreAny X d z₀.1).Reach s) {O : IdentOrder} {q : Query} {o : Output}
    (hv : (rocksStoreAny X d z₀.1).value O q s = .ok o) : q.gives = some o.kind := by
  have hS := same_of_value hd hv
  rw [hS.value O s] at hv
  exact ((sane hd s h).kinds s (reach s) O q).1 o hv

/-- Properties just read can be read. -/
theorem visible {s : Rocks} (h : (rocksStoreAny X d z₀.1).Reach s) {O : IdentOrder} : ∀ {q : Query},
    (∀ {l}, (rocksStoreAny X d z₀.1).value O q s = .ok (.vertexProperties l) → ∀ p ∈ l, ∀ x ∈ p.props, ¬ HiddenV X s p.vertex.id x.name) ∧
    (∀ {l}, (rocksStoreAny X d z₀.1).value O q s = .ok (.edgeProperties l) → ∀ p ∈ l, ∀ x ∈ p.props, ¬ HiddenE X s p.edge x.name) := by
  have hw : Wf X s.kv := wf_reading (inv hd h).wf
  intro q
  induction q with
  | pipeProperty i name _ =>
    have inner : ∀ {o}, (rocksStoreAny X d z₀.1).value O (.pipeProperty i name) s = .ok o → ∃ v, (rocksStoreAny X d z₀.1).value O i s = .ok v := by
      intro o ho
      rw [value_any] at ho ⊢
      simp only [eval, evalStage] at ho
      split at ho
      · cases ho
      · rename_i inc v hv
        exact ⟨v, by rw [hv]; rfl⟩
    refine ⟨fun {l} hv p hp x hx hid => ?_, fun {l} hv p hp x hx hid => ?_⟩
    · obtain ⟨v, hi⟩ := inner hv
      rw [Same.prop hd hi] at hv
      cases v with
      | vertices vs =>
        simp only [stageProperty, Bind.bind, Except.bind] at hv
        split at hv
        · cases hv
        · rename_i l' hl'
          cases hv
          obtain ⟨_, h2⟩ := pipeVertexProps_mem hl' p hp
          obtain ⟨a, _, k2, _⟩ := ownerV_ref hd s hw p.vertex name
          have hh : HidesV X s p.vertex.id name := by
            cases name with
            | none => exact ⟨_, hid⟩
            | some n => rw [← ownerProps_name h2 x hx]; exact hid
          rw [k2 hh] at h2; cases h2
      | edges es =>
        simp only [stageProperty, Bind.bind, Except.bind] at hv
        split at hv <;> cases hv
      | _ => cases hv
    · obtain ⟨v, hi⟩ := inner hv
      rw [Same.prop hd hi] at hv
      cases v with
      | edges vs =>
        simp only [stageProperty, Bind.bind, Except.bind] at hv
        split at hv
        · cases hv
        · rename_i l' hl'
          cases hv
          obtain ⟨_, h2⟩ := pipeEdgeProps_mem hl' p hp
          obtain ⟨a, _, k2, _⟩ := ownerE_ref hd s hw p.edge name
          have hh : HidesE X s p.edge name := by
            cases name with
            | none => exact ⟨_, hid⟩
            | some n => rw [← ownerProps_name h2 x hx]; exact hid
          rw [k2 hh] at h2; cases h2
      | vertices es =>
        simp only [stageProperty, Bind.bind, Except.bind] at hv
        split at hv <;> cases hv
      | _ => cases hv
  | incl i ih =>
    have e : (rocksStoreAny X d z₀.1).value O (.incl i) s = (rocksStoreAny X d z₀.1).value O i s := by rw [value_any, value_any]; rfl
    rw [e]; exact ih
  | pipe i dir l t _ =>
    refine ⟨fun {l} hv => ?_, fun {l} hv => ?_⟩ <;>
    · have g := gives hd h hv
      simp only [Query.gives] at g
      split at g <;> cases g
  | pipeWithPropertyPresence i n k _ =>
    refine ⟨fun {l} hv => ?_, fun {l} hv => ?_⟩ <;>
    · have g := gives hd h hv
      simp only [Query.gives] at g
      split at g <;> cases g
  | pipeWithPropertyValue i n x k _ =>
    refine ⟨fun {l} hv => ?_, fun {l} hv => ?_⟩ <;>
    · have g := gives hd h hv
      simp only [Query.gives] at g
      split at g <;> cases g
  | count i _ =>
    refine ⟨fun {l} hv => ?_, fun {l} hv => ?_⟩ <;>
    · have g := gives hd h hv
      simp only [Query.gives] at g
      split at g <;> cases g
  | _ =>
    refine ⟨fun {l} hv => ?_, fun {l} hv => ?_⟩ <;>
    · have g := gives hd h hv
      cases g

theorem deleteProperties : (rocksStoreAny X d z₀.1).DeletePropertiesExact := by
  intro s hr O q _
  have spec := (dbStep_spec (X := X.reading d) O (.delete q) s (inv hd hr) (okOp hd (.delete q))).stepWith
  have key : ∀ o, (rocksStoreAny X d z₀.1).value O q s = .ok o → lastOutput (reads X s) q = .ok o ∧ lastOutput (reads (X.reading d) s) q = .ok o ∧
      ∃ inc, eval (reads (X.reading d) s) q = .ok (inc, o) := by
    intro o ho
    have hS := same_of_value hd ho
    rw [value_any (X := X) (d := d) O q s] at ho
    refine ⟨by rw [lastOutput_eq]; exact ho, by rw [lastOutput_eq, ← hS]; exact ho, ?_⟩
    rw [hS] at ho
    obtain ⟨⟨inc, w⟩, e, rfl⟩ := map_ok_iff.1 ho
    exact ⟨inc, e⟩
  refine ⟨fun l hv => ?_, fun l hv => ?_⟩
  · obtain ⟨k1, k2, inc, k3⟩ := key _ hv
    have vis := (visible hd hr (O := O) (q := q)).1 hv
    have e : Rocks.step X O (.delete q) s = Rocks.step (X.reading d) O (.delete q) s := by
      have h1 : lastOutput ((txn X O).reads s) q = _ := k1
      have h2 : lastOutput ((txn (X.reading d) O).reads s) q = _ := k2
      show Upd.map (fun _ => Reply.unit) (dbDelete (txn X O) q s) = Upd.map (fun _ => Reply.unit) (dbDelete (txn (X.reading d) O) q s)
      simp only [dbDelete, h1, h2]
      refine congrArg _ ((deleteVertexProperties_ref hd s _).2 ?_)
      rintro ⟨p, hp, _, hh⟩
      simp only [vertexPropertyKeys, List.mem_flatMap, List.mem_map] at hp
      obtain ⟨a, ha, x, hx, rfl⟩ := hp
      exact vis a ha x hx hh
    show (Rocks.step X O (.delete q) s).2 = _ ∧ graph (X.reading d) (Rocks.step X O (.delete q) s).1 = _
    rw [e]
    simp only [StepWith, k3, DeleteValue] at spec
    exact ⟨spec.2, spec.1⟩
  · obtain ⟨k1, k2, inc, k3⟩ := key _ hv
    have vis := (visible hd hr (O := O) (q := q)).2 hv
    have e : Rocks.step X O (.delete q) s = Rocks.step (X.reading d) O (.delete q) s := by
      have h1 : lastOutput ((txn X O).reads s) q = _ := k1
      have h2 : lastOutput ((txn (X.reading d) O).reads s) q = _ := k2
      show Upd.map (fun _ => Reply.unit) (dbDelete (txn X O) q s) = Upd.map (fun _ => Reply.unit) (dbDelete (txn (X.reading d) O) q s)
      simp only [dbDelete, h1, h2]
      refine congrArg _ ((deleteEdgeProperties_ref hd s _).2 ?_)
      rintro ⟨p, hp, _, hh⟩
      simp only [edgePropertyKeys, List.mem_flatMap, List.mem_map] at hp
      obtain ⟨a, ha, x, hx, rfl⟩ := hp
      exact vis a ha x hx hh
    show (Rocks.step X O (.delete q) s).2 = _ ∧ graph (X.reading d) (Rocks.step X O (.delete q) s).1 = _
    rw [e]
    simp only [StepWith, k3, DeleteValue] at spec
    exact ⟨spec.2, spec.1⟩

end Unread
end IndraDB
