import Verif.Proofs.RocksFill
import Verif.Props.RocksComplete
import Verif.Props.RocksNames
import Verif.Props.Progress
/-
C69: `index_property` on a RocksDB datastore while other calls overlap.
-/
namespace IndraDB
open Rocks Rocks.Conc LockConc

/-- C69: in any life of a database (sessions with overlapping calls, I/O errors and crashes before the present one), `n` is
not indexed when the present session begins. In this session, calls overlap in any way. `index_property(n)` is called and
returns success. A vertex or edge that no call under way when it was called, and no later call, creates, is listed by the
query for the owners of `n`, if it exists and has the property: whether it was set before, meanwhile or afterwards. -/
theorem C69_rocks (X : Cfg) (hs : List (List Ev)) (s : Rocks) (hl : FaultyLife X hs s) (hos : ∀ h ∈ hs, OkCalls (CanRead X) h)
    (n : Identifier) (hn : (Rocks.graph X s).indexed n = false) (o : Owner)
    (h1 h2 : List Ev) (S : Conc) (hx : Exec X s (h1 ++ h2) S) (ho : OkCalls (CanRead X) (h1 ++ h2))
    (hi : ∀ c, Ev.call c (.indexProperty n) ∉ h1) (hr : IndexedIn h2 n)
    (hc1 : ∀ c op, Ev.call c op ∈ h1 → op.Creates o → ∃ r, Ev.ret c r ∈ h1)
    (hc2 : ∀ c op, Ev.call c op ∈ h2 → ¬ op.Creates o) :
    (rocksStoreFrom X (CanRead X) S.db).ListsOwner n o S.db := by
  have D := Sound.life hl hos
  have W := WfInv.exec D.wf D.values hx ho
  have H := FillInv.exec (R := fun _ _ => True) (V := CanRead X) (n := n) (o := o) (fun _ _ _ _ => trivial) (fun _ => trivial)
    (fun _ h => h) D.wf D.values hx ho (fun h => by rw [show (graph X s).indexed n = true from h] at hn; cases hn) hi hc1 hc2
  obtain ⟨c, a, h3, h4⟩ := hr
  exact (H.rets c a (List.mem_append_right _ h3) (List.mem_append_right _ h4)).lists W.wf W.values

/-- C69 for values: if moreover the values set in the present session are read back with the hash they are entered under
(`SameHash`), the query for the owners of `n` with the value `x` lists the vertex or edge if its property has this value. -/
theorem C69_rocks_value (X : Cfg) (hs : List (List Ev)) (s : Rocks) (hl : FaultyLife X hs s)
    (hos : ∀ h ∈ hs, OkCalls (CanRead X) h)
    (n : Identifier) (hn : (Rocks.graph X s).indexed n = false) (o : Owner)
    (h1 h2 : List Ev) (S : Conc) (hx : Exec X s (h1 ++ h2) S)
    (ho : OkCalls (fun x => CanRead X x ∧ SameHash X x) (h1 ++ h2))
    (hi : ∀ c, Ev.call c (.indexProperty n) ∉ h1) (hr : IndexedIn h2 n)
    (hc1 : ∀ c op, Ev.call c op ∈ h1 → op.Creates o → ∃ r, Ev.ret c r ∈ h1)
    (hc2 : ∀ c op, Ev.call c op ∈ h2 → ¬ op.Creates o) :
    (rocksStoreFrom X (CanRead X) S.db).ListsValueOwner n o S.db := by
  have D := Sound.life hl hos
  have W := WfInv.exec D.wf D.values hx (ho.mono (fun _ h => h.1))
  have E : Enters X (fun x => CanRead X x ∧ SameHash X x) (fun w k => X.H w.stream = k) := by
    intro x w hv hw
    have := hv.2
    rw [SameHash, Cfg.stored, hw] at this
    exact this
  have H := FillInv.exec (n := n) (o := o) E (fun _ => rfl)
    (fun _ h => h.1) D.wf D.values hx ho (fun h => by rw [show (graph X s).indexed n = true from h] at hn; cases hn) hi hc1 hc2
  obtain ⟨c, a, h3, h4⟩ := hr
  exact (H.rets c a (List.mem_append_right _ h3) (List.mem_append_right _ h4)).listsValues W.wf W.values

/-! ### Example -/

/-- What is inevitable happens. -/
theorem Inevitably.reaches {α : Type} {r : α → α → Prop} {a : α} {done : α → Prop} (h : Inevitably r a done) :
    ∃ b, Star r a b ∧ done b := by
  by_cases hx : ∃ b, Star r a b ∧ ∀ c, ¬ r b c
  · obtain ⟨b, h1, h2⟩ := hx
    exact ⟨b, h1, h.2 b h1 h2⟩
  · have hx' : ∀ b : {b // Star r a b}, ∃ c, r b.1 c := fun b =>
      Classical.byContradiction fun hn => hx ⟨b.1, b.2, fun c hc => hn ⟨c, hc⟩⟩
    let f : Nat → {b // Star r a b} := fun i => Nat.rec ⟨a, .refl a⟩
      (fun _ b => ⟨(hx' b).choose, b.2.tail (hx' b).choose_spec⟩) i
    exact (h.1 ⟨fun i => (f i).1, rfl, fun i => (hx' (f i)).choose_spec⟩).elim

/-- Vertex 1 is created. Call 1 sets its property `p` to 7; before it has written, `index_property(p)` is called (call 2). Both return
success. This meets all the conditions; so the queries list vertex 1 whichever call was first. -/
example : ∃ a a' a'' h S,
    let h1 := [Ev.call 0 (.createVertex ⟨W.u 1, W.t⟩), .ret 0 (.ok a), .call 1 (W.set 7)]
    let h2 := [Ev.call 2 (.indexProperty W.p), .ret 1 (.ok a')] ++ h
    FaultyLife (W.cfg .debug) [] Rocks.init ∧ (Rocks.graph (W.cfg .debug) Rocks.init).indexed W.p = false ∧
    Exec (W.cfg .debug) Rocks.init (h1 ++ h2) S ∧ (∀ c op, Ev.call c op ∉ h) ∧ Ev.ret 2 (.ok a'') ∈ h ∧
    (rocksStoreFrom (W.cfg .debug) (CanRead (W.cfg .debug)) S.db).ListsOwner W.p (.vertex (W.u 1)) S.db ∧
    (rocksStoreFrom (W.cfg .debug) (CanRead (W.cfg .debug)) S.db).ListsValueOwner W.p (.vertex (W.u 1)) S.db := by
  have H : ∀ k, W.n k ∈ W.values → (W.set k).ValuesOk (fun x => CanRead (W.cfg .debug) x ∧ SameHash (W.cfg .debug) x) := by
    intro k hk
    refine ⟨W.canRead hk, ?_⟩
    show Sip.hash ((W.codec.dec (W.codec.enc (W.n k))).getD .null).stream = _
    rw [W.codec_values _ hk]; rfl
  have e := Exec.nil (X := W.cfg .debug) (s := Rocks.init)
  have e := e.snoc (.call _ 0 .sorted (.createVertex ⟨W.u 1, W.t⟩) rfl)
  have pend : ((callProg (W.cfg .debug) .sorted (.createVertex ⟨W.u 1, W.t⟩)).pending Rocks.init).isSome = true := by decide +kernel
  obtain ⟨b, hb⟩ := Option.isSome_iff_exists.1 pend
  obtain ⟨n, R, e⟩ := e.toWrite (c := 0) (callProg (W.cfg .debug) .sorted (.createVertex ⟨W.u 1, W.t⟩)) (by simp [setAt]) rfl hb
  obtain ⟨a, ha⟩ := (LogInv.exec e).single 0 (.write b n) (by simp [setAt])
  have e := e.snoc (.write _ 0 b n (by simp [setAt]))
  obtain ⟨R, e⟩ := e.toRet (c := 0) (r := .ok a) (by simp [setAt, ha]) (by simp [Conc.init])
  have e := e.snoc (.call _ 1 .sorted (W.set 7) (by simp [setAt, Conc.init]))
  have pend' : ((callProg (W.cfg .debug) .sorted (W.set 7)).pending { Rocks.init with kv := Rocks.init.kv.write b }).isSome = true := by
    have h : ∀ o : Option Batch, o = (callProg (W.cfg .debug) .sorted (.createVertex ⟨W.u 1, W.t⟩)).pending Rocks.init →
        ((callProg (W.cfg .debug) .sorted (W.set 7)).pending { Rocks.init with kv := Rocks.init.kv.write (o.getD []) }).isSome = true := by
      rintro _ rfl; decide +kernel
    exact h (some b) hb.symm
  obtain ⟨b', hb'⟩ := Option.isSome_iff_exists.1 pend'
  obtain ⟨n', R', e⟩ := e.toWrite (c := 1) (callProg (W.cfg .debug) .sorted (W.set 7)) (by simp [setAt]) (by simp [Conc.init]) hb'
  have e := e.snoc (.call _ 2 .sorted (.indexProperty W.p) (by simp [setAt, Conc.init]))
  obtain ⟨a', ha'⟩ := (LogInv.exec e).single 1 (.write b' n') (by simp [setAt])
  have e := e.snoc (.write _ 1 b' n' (by simp [setAt]))
  obtain ⟨R', e⟩ := e.toRet (c := 1) (r := .ok a') (by simp [setAt, ha']) (by simp [Conc.init])
  obtain ⟨D, hs, hd⟩ := (C58_rocks (W.cfg .debug) Rocks.init false _ _ e).reaches
  obtain ⟨h, e', hcalls⟩ := e.star hs
  clear hs e
  simp only [List.append_assoc, List.nil_append, List.cons_append] at e'
  have hok : OkCalls (fun x => CanRead (W.cfg .debug) x ∧ SameHash (W.cfg .debug) x)
      ([Ev.call 0 (.createVertex ⟨W.u 1, W.t⟩), .ret 0 (.ok a), .call 1 (W.set 7)] ++
        ([Ev.call 2 (.indexProperty W.p), .ret 1 (.ok a')] ++ h)) := by
    intro c op hm
    simp only [List.cons_append, List.nil_append, List.mem_cons, Ev.call.injEq, reduceCtorEq, false_or] at hm
    rcases hm with ⟨_, rfl⟩ | ⟨_, rfl⟩ | ⟨_, rfl⟩ | hm
    · trivial
    · exact H 7 (by simp [W.values])
    · trivial
    · exact absurd hm (hcalls _ _)
  have seen := e'.seen 2
  have hfin : D.calls 2 = .finished := (hd 2).resolve_left (seen.1 (.indexProperty W.p) (by simp))
  obtain ⟨r, hr⟩ := seen.2 hfin
  have hrh : Ev.ret 2 r ∈ h := by simpa using hr
  have hrok : ∃ a'', r = .ok a'' := by
    cases r with
    | ok a'' => exact ⟨a'', rfl⟩
    | error f =>
      obtain ⟨x, _, hx⟩ := C65_rocks [] Rocks.init (.new rfl) (fun _ h => (nomatch h))
        [Ev.call 0 (.createVertex ⟨W.u 1, W.t⟩), .ret 0 (.ok a), .call 1 (W.set 7)]
        ([Ev.call 2 (.indexProperty W.p), .ret 1 (.ok a')] ++ h) D e' (hok.mono (fun _ h => h.1)) 2 (.indexProperty W.p)
        (by simp) f (List.mem_append_right _ hrh)
      cases x with
      | notIndexed => obtain ⟨m, hm, _⟩ := hx; exact (nomatch hm)
      | operationOnQuery => exact (hx trivial).elim
      | uuidTaken => obtain ⟨_, _, hx⟩ := hx; cases hx
      | _ => exact hx.elim
  obtain ⟨a'', rfl⟩ := hrok
  have c0 : ∀ c, Ev.call c (.indexProperty W.p) ∉
      [Ev.call 0 (.createVertex ⟨W.u 1, W.t⟩), .ret 0 (.ok a), .call 1 (W.set 7)] := by
    intro c hm
    simp [W.set] at hm
  have c1 : ∀ c op, Ev.call c op ∈ [Ev.call 0 (.createVertex ⟨W.u 1, W.t⟩), .ret 0 (.ok a), .call 1 (W.set 7)] →
      op.Creates (.vertex (W.u 1)) → ∃ r, Ev.ret c r ∈ [Ev.call 0 (.createVertex ⟨W.u 1, W.t⟩), .ret 0 (.ok a), .call 1 (W.set 7)] := by
    intro c op hm hcr
    simp only [List.mem_cons, Ev.call.injEq, reduceCtorEq, List.not_mem_nil, or_false, false_or] at hm
    rcases hm with ⟨rfl, _⟩ | ⟨_, rfl⟩
    · exact ⟨.ok a, by simp⟩
    · exact (hcr : False).elim
  have c2 : ∀ c op, Ev.call c op ∈ [Ev.call 2 (.indexProperty W.p), .ret 1 (.ok a')] ++ h → ¬ op.Creates (.vertex (W.u 1)) := by
    intro c op hm hcr
    simp only [List.cons_append, List.nil_append, List.mem_cons, Ev.call.injEq, reduceCtorEq, false_or] at hm
    rcases hm with ⟨_, rfl⟩ | hm
    · exact (hcr : False)
    · exact hcalls _ _ hm
  have hin : IndexedIn ([Ev.call 2 (.indexProperty W.p), .ret 1 (.ok a')] ++ h) W.p :=
    ⟨2, a'', by simp, List.mem_append_right _ hrh⟩
  exact ⟨a, a', a'', h, D, .new rfl, rfl, e', hcalls, hrh,
    C69_rocks (W.cfg .debug) [] Rocks.init (.new rfl) (fun _ h => (nomatch h)) W.p rfl (.vertex (W.u 1)) _ _ D e'
      (hok.mono (fun _ h => h.1)) c0 hin c1 c2,
    C69_rocks_value (W.cfg .debug) [] Rocks.init (.new rfl) (fun _ h => (nomatch h)) W.p rfl (.vertex (W.u 1)) _ _ D e'
      hok c0 hin c1 c2⟩

end IndraDB
