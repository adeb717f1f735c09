import Verif.Props.RocksLife
import Verif.Props.Gone
/-
C97 to C99 for a RocksDB server that is killed again and again.
-/
set_option linter.unusedSimpArgs false
namespace IndraDB
open Rocks Rocks.Conc
variable {X : Cfg}

/-- Deleting vertices by their ids, whether they exist or not. -/
theorem Conforms.idsGone {S : Store} {C : Conv} {Sm : Sem} (F : Conforms S C Sm)
    (hA : ∀ env op s r, (S.step env op s).2 = .ok r → S.alive s = true) {hold : Graph → Edge → Prop} (hD : Sm.Drops hold) (hM : Sm.Makes) :
    ∀ h1 env ids id h2, S.OkHist (h1 ++ (env, .delete (.specificVertex ids)) :: h2) → id ∈ ids →
      (S.step env (.delete (.specificVertex ids)) (S.run h1 S.init)).2 = .ok .unit → (∀ p ∈ h2, ∀ w ∈ p.2.newVertices, w.id ≠ id) →
      ∀ env' l, S.ask env' .allVertex (S.run (h1 ++ (env, .delete (.specificVertex ids)) :: h2) S.init) = .ok [.vertices l] →
      ∀ w ∈ l, w.id ≠ id := by
  intro h1 env ids id h2 ho hid hok hn env' l hl w hw
  have ha := F.ask_alive hA hl
  obtain ⟨hr, hst⟩ := F.at_split hA ho ha
  have hval : S.value env (.specificVertex ids) (S.run h1 S.init) = .ok (.vertices ((S.graph (S.run h1 S.init)).lookup ids)) := by
    unfold Store.value
    rw [(F.vertexQueries _ hr env).2.2 ids]
    rfl
  cases hx : (S.graph (S.run h1 S.init)).vertex id with
  | some t =>
    have hm : (⟨id, t⟩ : Vertex) ∈ (S.graph (S.run h1 S.init)).lookup ids := by
      simp only [Graph.lookup, List.mem_filterMap]
      exact ⟨id, hid, by simp [hx]⟩
    exact F.verticesGone hA hD hM h1 env _ _ ⟨id, t⟩ h2 ho hval hm hok hn env' l hl w hw
  | none =>
    have h0 : ∀ t, (S.graph (S.run (h1 ++ [(env, .delete (.specificVertex ids))]) S.init)).vertex id ≠ some t := by
      intro t ht
      rcases (stepWith_made hM hst).1 ⟨id, t⟩ ht with h | h
      · rw [hx] at h; cases h
      · cases h
    have e : h1 ++ (env, .delete (.specificVertex ids)) :: h2 = (h1 ++ [(env, .delete (.specificVertex ids))]) ++ h2 := by simp
    have hr2 : S.Reach (S.run (h1 ++ (env, .delete (.specificVertex ids)) :: h2) S.init) := ⟨_, rfl, ha, ho⟩
    obtain ⟨l', he, hl'⟩ := (F.vertexQueries _ hr2 env').1
    rw [hl] at hl'; cases hl'
    have hw' := (he.mem w).1 hw
    intro hid
    rw [e] at ho ha hw'
    have := F.kept (P := fun g => ∀ t, g.vertex id ≠ some t) (Q := fun op => ∀ w ∈ op.newVertices, w.id ≠ id)
      (fun g ans op g' r h hq hp t ht => by
        rcases (stepWith_made hM h).1 ⟨id, t⟩ ht with h | h
        · exact hp t h
        · exact hq _ h rfl) h2 _ ho ha (fun p hp => hn p hp) h0
    rw [hid] at hw'
    exact this _ hw'

theorem RocksLife.last {ss : List Session} {z : Session} {t : Rocks} (h : RocksLife X (ss ++ [z]) t) :
    RocksLife X ss z.start ∧ Exec X z.start z.h z.conc ∧ z.k ≤ z.conc.log.length ∧
      (newDb (Dir.full (replay z.start.kv (z.conc.log.take z.k)))).2 = .ok t := by
  generalize hs : ss ++ [z] = l at h
  cases h with
  | new _ => simp at hs
  | again h1 h2 h3 h4 =>
    obtain ⟨rfl, he⟩ := List.append_inj' hs rfl
    cases he
    exact ⟨h1, h2, h3, h4⟩

theorem lifeLength_append (a b : List Session) : lifeLength (a ++ b) = lifeLength a + lifeLength b := by
  simp [lifeLength]

/-- One more session, after a state that a history leads to. -/
theorem life_more {P : Op → Prop} (hP : ∀ op, op.isWrite = true → P op) {l : List (IdentOrder × Op)} (ho : (rocksStore X).OkHist l)
    {z : Session} {t : Rocks} (hs : z.start = (rocksStore X).run l Rocks.init) (hx : Exec X z.start z.h z.conc)
    (hk : z.k ≤ z.conc.log.length) (ht : (newDb (Dir.full (replay z.start.kv (z.conc.log.take z.k)))).2 = .ok t)
    (hq : Apart P z.h ∧ OkCalls (CanRead X) z.h) (hn : l.length + z.h.length < 2 ^ 64) :
    ∃ l', Survives X P z l' ∧ (rocksStore X).OkHist (l ++ l') ∧ l'.length ≤ z.h.length ∧ t = (rocksStore X).run (l ++ l') Rocks.init := by
  obtain ⟨s, h, S, k⟩ := z
  simp only at hs
  subst hs
  obtain ⟨l', h1, h2, h3, h4⟩ := session_end hP ho hx hk hq.1 hq.2 hn
  rw [h4] at ht
  cases ht
  exact ⟨l', h1, h2, h3, rfl⟩

/-- The calls that survive a session are calls of the session. -/
theorem Survives.called {P : Op → Prop} {z : Session} {l : List (IdentOrder × Op)} (h : Survives X P z l) :
    ∀ p ∈ l, ∃ c, Ev.call c p.2 ∈ z.h := by
  obtain ⟨L, u, n, H, rfl, _⟩ := h
  intro p hp
  obtain ⟨y, hy, rfl⟩ := List.mem_map.1 hp
  exact ⟨y.c, (H.called y (List.mem_of_mem_take hy)).1⟩

/-- A call in a legal execution had its outcome at its place. -/
theorem legal_at {s t : Rocks} {s₀ : Rocks} : ∀ (L1 : List (rocksStoreFrom X (CanRead X) s₀).Lin) (x) (L2 : List (rocksStoreFrom X (CanRead X) s₀).Lin)
    (s : Rocks), (rocksStoreFrom X (CanRead X) s₀).Legal s (L1 ++ x :: L2) t →
    ((rocksStore X).step x.env x.op ((rocksStore X).run (linCalls L1) s)).2 = x.r
  | [], x, L2, s, h => h.1
  | y :: L1, x, L2, s, h => legal_at (s := s) L1 x L2 _ h.2

/-- In the history `h` the call `c'` for `op'` is made, and it has not returned when the call `c` for `op` is made (`P` are the calls
that are considered; they include all that may write). -/
def NotBefore (P : Op → Prop) (h : List Ev) (c : Nat) (op : Op) (c' : Nat) (op' : Op) : Prop :=
  Ev.call c' op' ∈ h ∧ ¬ ((∀ o, Ev.call c' o ∈ h → P o) ∧ ∃ a b r, h = a ++ Ev.ret c' r :: b ∧ Ev.call c op ∈ b)

/-- The call `op'` is made in the session `x` and has not returned when the call `c` for `op` is made, or is made in one of the sessions
`b`, which come later. -/
def After (P : Op → Prop) (x : Session) (b : List Session) (c : Nat) (op op' : Op) : Prop :=
  (∃ c', NotBefore P x.h c op c' op') ∨ ∃ y ∈ b, ∃ c', Ev.call c' op' ∈ y.h

theorem late_of_split {P : Op → Prop} {s u : Rocks} {h : List Ev} {L1 L2 : List (rocksStoreFrom X (CanRead X) s).Lin}
    {x y : (rocksStoreFrom X (CanRead X) s).Lin} (H : (rocksStoreFrom X (CanRead X) s).Linearization P h (L1 ++ x :: L2) u) (hy : y ∈ L2) :
    NotBefore P h x.c x.op y.c y.op := by
  have hm : y ∈ L1 ++ x :: L2 := List.mem_append_right _ (List.mem_cons_of_mem _ hy)
  refine ⟨(H.called y hm).1, ?_⟩
  rintro ⟨hP, a, b, r, he, hc⟩
  have h1 := H.order a b y.c r x.c x.op he hc hP (List.mem_map.2 ⟨x, by simp, rfl⟩)
  have hn := H.once
  rw [List.map_append, List.map_cons] at h1 hn
  obtain ⟨n1, n2, n3⟩ := List.nodup_append.1 hn
  have hyc : y.c ∈ L2.map (·.c) := List.mem_map_of_mem hy
  have hne := (List.nodup_cons.1 n2).1
  have hx1 : x.c ∉ L1.map (·.c) := fun h => n3 _ h _ List.mem_cons_self rfl
  have hy1 : y.c ∉ L1.map (·.c) := fun h => n3 _ h _ (List.mem_cons_of_mem _ hyc) rfl
  obtain ⟨l1, l2, e, s1, s2⟩ := List.sublist_append_iff.1 h1
  cases l1 with
  | cons z l1 =>
    simp only [List.cons_append, List.cons.injEq] at e
    exact hy1 (e.1 ▸ s1.subset List.mem_cons_self)
  | nil =>
    simp only [List.nil_append] at e
    subst e
    rcases List.sublist_cons_iff.1 s2 with s2 | ⟨r', e, s2⟩
    · exact hne (s2.subset (by simp))
    · injection e with e1 e2
      exact hne (e1 ▸ hyc)

/-- After any number of sessions the database is what a history leads to; of a call that was answered in a session that ended with the
process only, whatever happens later, the history contains it with its answer, followed by calls of this session that had not returned when it was made and calls of
later sessions. -/
theorem life_ack {P : Op → Prop} (hP : ∀ op, op.isWrite = true → P op) {a : List Session} {x : Session}
    (hk : x.k = x.conc.log.length) {c : Nat} {op : Op} {r : Res Reply} (hcall : Ev.call c op ∈ x.h) (hop : P op) (hret : Ev.ret c r ∈ x.h) :
    ∀ (n : Nat) (b : List Session) (s : Rocks), b.length = n → RocksLife X (a ++ x :: b) s →
    (∀ y ∈ a ++ x :: b, Apart P y.h ∧ OkCalls (CanRead X) y.h) → lifeLength (a ++ x :: b) < 2 ^ 64 →
    ∃ (h1 : List (IdentOrder × Op)) (env : IdentOrder) (h2 : List (IdentOrder × Op)), s = (rocksStore X).run (h1 ++ (env, op) :: h2) Rocks.init ∧ (rocksStore X).OkHist (h1 ++ (env, op) :: h2) ∧
      ((rocksStore X).step env op ((rocksStore X).run h1 Rocks.init)).2 = r ∧
      (∀ p ∈ h2, After P x b c op p.2) ∧ (h1 ++ (env, op) :: h2).length ≤ lifeLength (a ++ x :: b)
  | 0, b, s, hb, hl, hq, hn => by
    cases List.length_eq_zero_iff.1 hb
    obtain ⟨g1, g2, g3, g4⟩ := RocksLife.last hl
    rw [lifeLength_append] at hn
    obtain ⟨ls, _, hs, ho, hlen⟩ := life_state hP g1 (fun y hy => hq y (List.mem_append_left _ hy)) (by omega)
    have hxl : lifeLength [x] = x.h.length := by simp [lifeLength]
    obtain ⟨l', h1, h2, h3, h4⟩ := life_more hP ho hs g2 g3 g4 (hq x (by simp)) (by omega)
    obtain ⟨L, u, n, H, hl', hfull⟩ := h1
    have hl' := hfull hk
    obtain ⟨env, hm⟩ := H.returned c op r hcall hop hret
    obtain ⟨L1, L2, rfl⟩ := List.append_of_mem hm
    have hat := legal_at (s := x.start) L1 _ L2 x.start H.legal
    obtain ⟨e1, he1⟩ : ∃ e1 : List (IdentOrder × Op), e1 = linCalls L1 := ⟨_, rfl⟩
    obtain ⟨e2, he2⟩ : ∃ e2 : List (IdentOrder × Op), e2 = linCalls L2 := ⟨_, rfl⟩
    obtain ⟨env', henv⟩ : ∃ env' : IdentOrder, env' = env := ⟨_, rfl⟩
    have hsplit : ls.flatten ++ l' = (ls.flatten ++ e1) ++ (env', op) :: e2 := by
      rw [hl', he1, he2, henv, linCalls, List.map_append, List.map_cons, List.append_assoc]; rfl
    rw [hsplit] at h2 h4
    refine ⟨ls.flatten ++ e1, env', e2, h4, h2, ?_, ?_, ?_⟩
    · have hh : (rocksStore X).run (ls.flatten ++ e1) Rocks.init = (rocksStore X).run e1 ((rocksStore X).run ls.flatten Rocks.init) :=
        Store.run_append ..
      rw [hh, ← hs, he1, henv]
      exact hat
    · intro p hp
      rw [he2] at hp
      obtain ⟨y, hy, rfl⟩ := List.mem_map.1 hp
      exact .inl ⟨y.c, late_of_split H hy⟩
    · rw [← hsplit, lifeLength_append, List.length_append]; omega
  | n + 1, b, s, hb, hl, hq, hn => by
    have hne : b ≠ [] := by rintro rfl; cases hb
    obtain ⟨b, z, rfl⟩ : ∃ b' z, b = b' ++ [z] := ⟨_, _, (List.dropLast_concat_getLast hne).symm⟩
    have e : a ++ x :: (b ++ [z]) = (a ++ x :: b) ++ [z] := by simp
    rw [e] at hl hq hn ⊢
    obtain ⟨g1, g2, g3, g4⟩ := RocksLife.last hl
    rw [lifeLength_append] at hn
    obtain ⟨h1, env, h2, hs, ho, hr, hc, hlen⟩ := life_ack hP hk hcall hop hret n b z.start (by simpa using hb) g1
      (fun y hy => hq y (List.mem_append_left _ hy)) (by omega)
    have hzl : lifeLength [z] = z.h.length := by simp [lifeLength]
    obtain ⟨l', k1, k2, k3, k4⟩ := life_more hP ho hs g2 g3 g4 (hq z (by simp)) (by omega)
    have e2 : (h1 ++ (env, op) :: h2) ++ l' = h1 ++ (env, op) :: (h2 ++ l') := by simp
    rw [e2] at k2 k4
    refine ⟨h1, env, h2 ++ l', k4, k2, hr, ?_, ?_⟩
    · intro p hp
      rcases List.mem_append.1 hp with hp | hp
      · rcases hc p hp with hc | ⟨y, hy, hy'⟩
        · exact .inl hc
        · exact .inr ⟨y, List.mem_append_left _ hy, hy'⟩
      · obtain ⟨c', h⟩ := k1.called p hp
        exact .inr ⟨z, by simp, c', h⟩
    · rw [← e2, List.length_append, lifeLength_append]; omega

/-- C98 for a database that is opened again and again: a vertex or edge whose creation was answered, in a session that only ended with
its process, is listed after any number of later sessions and kills, unless a call that is not earlier deletes something or is a bulk
insertion that gives the vertex another type. -/
theorem C98_rocks_life (P : Op → Prop) (hP : ∀ op, op.isWrite = true → P op) (a b : List Session) (x : Session) (s : Rocks)
    (hl : RocksLife X (a ++ x :: b) s) (hq : ∀ y ∈ a ++ x :: b, Apart P y.h ∧ OkCalls (CanRead X) y.h)
    (hn : lifeLength (a ++ x :: b) < 2 ^ 64) (hk : x.k = x.conc.log.length) (c : Nat) (env : IdentOrder) :
    (∀ v, Ev.call c (.createVertex v) ∈ x.h → Ev.ret c (.ok (.bool true)) ∈ x.h →
      (∀ q, ¬ After P x b c (.createVertex v) (.delete q)) →
      (∀ items, After P x b c (.createVertex v) (.bulkInsert items) → ∀ w, BulkInsertItem.vertex w ∈ items → w.id = v.id → w = v) →
      ∀ l, (rocksStore X).ask env .allVertex s = .ok [.vertices l] → v ∈ l) ∧
    (∀ e, Ev.call c (.createEdge e) ∈ x.h → Ev.ret c (.ok (.bool true)) ∈ x.h →
      (∀ q, ¬ After P x b c (.createEdge e) (.delete q)) →
      ∀ l, (rocksStore X).ask env .allEdge s = .ok [.edges l] → e ∈ l) := by
  refine ⟨fun v hc hr hd hb l hv => ?_, fun e hc hr hd l hv => ?_⟩
  · obtain ⟨h1, env1, h2, rfl, ho, ha, hlate, _⟩ := life_ack hP hk hc (hP _ rfl) hr b.length b s rfl hl hq hn
    refine (C98_rocks X).1 h1 env1 v h2 ho ha (fun p hp q hpq => hd q (hpq ▸ hlate p hp)) (fun p hp items hpi i hi => ?_) env l hv
    rintro ⟨w, rfl, hw, hne⟩
    exact hne (hb items (hpi ▸ hlate p hp) w hi hw)
  · obtain ⟨h1, env1, h2, rfl, ho, ha, hlate, _⟩ := life_ack hP hk hc (hP _ rfl) hr b.length b s rfl hl hq hn
    exact (C98_rocks X).2.1 h1 env1 e h2 ho ha (fun p hp q hpq => hd q (hpq ▸ hlate p hp)) env l hv

/-- C99 for a database that is opened again and again: after a deletion of vertices by their ids was answered, in a session that only
ended with its process, none of them is listed after any number of later sessions and kills, unless a call that is not earlier is given
a vertex with this id to create. -/
theorem C99_rocks_life (P : Op → Prop) (hP : ∀ op, op.isWrite = true → P op) (a b : List Session) (x : Session) (s : Rocks)
    (hl : RocksLife X (a ++ x :: b) s) (hq : ∀ y ∈ a ++ x :: b, Apart P y.h ∧ OkCalls (CanRead X) y.h)
    (hn : lifeLength (a ++ x :: b) < 2 ^ 64) (hk : x.k = x.conc.log.length) (c : Nat) (env : IdentOrder) (ids : List Uuid) (id : Uuid)
    (hid : id ∈ ids) (hc : Ev.call c (.delete (.specificVertex ids)) ∈ x.h) (hr : Ev.ret c (.ok .unit) ∈ x.h)
    (hw : ∀ op, After P x b c (.delete (.specificVertex ids)) op → ∀ w ∈ op.newVertices, w.id ≠ id) :
    ∀ l, (rocksStore X).ask env .allVertex s = .ok [.vertices l] → ∀ w ∈ l, w.id ≠ id := by
  obtain ⟨h1, env1, h2, rfl, ho, ha, hlate, _⟩ := life_ack hP hk hc (hP _ rfl) hr b.length b s rfl hl hq hn
  exact (Rocks.conforms X).idsGone (fun _ _ _ _ _ => rfl) (Sem.rocks_drops X) (Sem.rocks_makes X) h1 env1 ids id h2 ho hid ha
    (fun p hp => hw p.2 (hlate p hp)) env

/-- C97 for a database that is opened again and again: what is listed was given to a call of one of the sessions to create. -/
theorem C97_rocks_life (P : Op → Prop) (hP : ∀ op, op.isWrite = true → P op) (ss : List Session) (s : Rocks) (hl : RocksLife X ss s)
    (hq : ∀ y ∈ ss, Apart P y.h ∧ OkCalls (CanRead X) y.h) (hn : lifeLength ss < 2 ^ 64) (env : IdentOrder) :
    (∀ l, (rocksStore X).ask env .allVertex s = .ok [.vertices l] → ∀ v ∈ l, ∃ y ∈ ss, ∃ c op, Ev.call c op ∈ y.h ∧ v ∈ op.newVertices) ∧
    (∀ l, (rocksStore X).ask env .allEdge s = .ok [.edges l] → ∀ e ∈ l, ∃ y ∈ ss, ∃ c op, Ev.call c op ∈ y.h ∧ e ∈ op.newEdges) := by
  obtain ⟨ls, hm, rfl, ho, _⟩ := life_state hP hl hq hn
  have key : ∀ p ∈ ls.flatten, ∃ y ∈ ss, ∃ c, Ev.call c p.2 ∈ y.h := by
    intro p hp
    obtain ⟨l', hl', hp'⟩ := List.mem_flatten.1 hp
    obtain ⟨i, hi, rfl⟩ := List.mem_iff_getElem.1 hl'
    have hi' : i < ss.length := by rw [hm.1]; exact hi
    obtain ⟨c, hc⟩ := (hm.2 i _ _ (List.getElem?_eq_getElem hi') (List.getElem?_eq_getElem hi)).called p hp'
    exact ⟨_, List.getElem_mem hi', c, hc⟩
  refine ⟨fun l h v hv => ?_, fun l h e he => ?_⟩
  · obtain ⟨p, hp, hpv⟩ := List.mem_flatMap.1 (((C97_rocks X ls.flatten ho env).1 l h).1 v hv)
    obtain ⟨y, hy, c, hc⟩ := key p hp
    exact ⟨y, hy, c, p.2, hc, hpv⟩
  · obtain ⟨p, hp, hpv⟩ := List.mem_flatMap.1 (((C97_rocks X ls.flatten ho env).2.1 l h).1 e he)
    obtain ⟨y, hy, c, hc⟩ := key p hp
    exact ⟨y, hy, c, p.2, hc, hpv⟩

/-- The life of `Props/RocksLife`: a vertex is created and the process dies while the creation of another is under way; then all
vertices are asked for. The hypotheses of `C98_rocks_life` are met for the first creation. -/
example : ∃ x y s, RocksLife X ([] ++ x :: [y]) s ∧ (∀ z ∈ [] ++ x :: [y], Apart Counts z.h ∧ OkCalls (CanRead X) z.h) ∧
    lifeLength ([] ++ x :: [y]) < 2 ^ 64 ∧ x.k = x.conc.log.length ∧
    Ev.call 0 (.createVertex ⟨W.u 1, W.t⟩) ∈ x.h ∧ Ev.ret 0 (.ok (.bool true)) ∈ x.h ∧
    (∀ q, ¬ After Counts x [y] 0 (.createVertex ⟨W.u 1, W.t⟩) (.delete q)) ∧
    (∀ items, ¬ After Counts x [y] 0 (.createVertex ⟨W.u 1, W.t⟩) (.bulkInsert items)) := by
  have hP : ∀ op : Op, op.isWrite = true → Counts op := fun _ h => Or.inl h
  have hv : (newDb none).2 = .ok Rocks.init := rfl
  have e := Exec.nil (X := X) (s := Rocks.init)
  have e := e.snoc (.call _ 0 .sorted (.createVertex ⟨W.u 1, W.t⟩) rfl)
  have e := e.snoc (.get _ 0 _ _ _ rfl)
  have e := e.snoc (.write _ 0 _ _ rfl)
  have e := e.snoc (.ret _ 0 _ rfl (by simp [Conc.init]) (by simp [Conc.init]))
  have e := e.snoc (.call _ 1 .sorted (.createVertex ⟨W.u 2, W.t⟩) rfl)
  have l1 := RocksLife.new (X := X) hv
  have q1 : SeqWrites [.call 0 (.createVertex ⟨W.u 1, W.t⟩), .ret 0 (.ok (.bool true)),
      .call 1 (.createVertex ⟨W.u 2, W.t⟩)] := by
    intro a b c op he hw c' op' hm hw'
    rcases a with _ | ⟨x1, _ | ⟨x2, _ | ⟨x3, a⟩⟩⟩
    · cases hm
    · simp at he
    · simp at he
      obtain ⟨rfl, rfl, _⟩ := he
      simp at hm
      obtain ⟨rfl, rfl⟩ := hm
      exact ⟨.ok (.bool true), by simp⟩
    · simp at he
  have q2 : SeqWrites [.call 0 (.get .allVertex)] := by
    intro a b c op he hw c' op' hm hw'
    rcases a with _ | ⟨x1, a⟩
    · cases hm
    · simp at he
  have o1 : OkCalls (CanRead X) [.call 0 (.createVertex ⟨W.u 1, W.t⟩), .ret 0 (.ok (.bool true)),
      .call 1 (.createVertex ⟨W.u 2, W.t⟩)] := by
    intro c op hm
    simp at hm
    rcases hm with ⟨_, rfl⟩ | ⟨_, rfl⟩ <;> trivial
  have o2 : OkCalls (CanRead X) [.call 0 (.get .allVertex)] := by
    intro c op hm
    simp at hm
    obtain ⟨_, rfl⟩ := hm
    trivial
  obtain ⟨t, l2⟩ := C57_rocks_starts X Counts hP [] _ l1 _ _ 1 e (by exact Nat.le_refl _)
    (fun x hx => by simp at hx; subst hx; exact ⟨q1.apart, o1⟩)
    (Nat.lt_of_le_of_lt (show _ ≤ 3 from Nat.le_refl _) (by decide))
  have f := Exec.nil (X := X) (s := t)
  have f := f.snoc (.call _ 0 .sorted (.get .allVertex) rfl)
  obtain ⟨t', l3⟩ := C57_rocks_starts X Counts hP _ _ l2 _ _ 0 f (Nat.zero_le _)
    (fun x hx => by
      simp at hx
      rcases hx with rfl | rfl
      · exact ⟨q1.apart, o1⟩
      · exact ⟨q2.apart, o2⟩)
    (Nat.lt_of_le_of_lt (show _ ≤ 4 from Nat.le_refl _) (by decide))
  refine ⟨_, _, t', l3, fun x hx => ?_, Nat.lt_of_le_of_lt (show _ ≤ 4 from Nat.le_refl _) (by decide), rfl, by simp, by simp,
    ?_, ?_⟩
  · simp at hx
    rcases hx with rfl | rfl
    · exact ⟨q1.apart, o1⟩
    · exact ⟨q2.apart, o2⟩
  · rintro q (⟨c', h, _⟩ | ⟨y, hy, c', h⟩)
    · simp at h
    · simp at hy; subst hy; simp at h
  · rintro q (⟨c', h, _⟩ | ⟨y, hy, c', h⟩)
    · simp at h
    · simp at hy; subst hy; simp at h

/-- A life of one session in which a vertex is created and then deleted: the hypotheses of `C99_rocks_life` are met. -/
example : ∃ x s, RocksLife X ([] ++ x :: []) s ∧ (∀ z ∈ [] ++ x :: [], Apart Counts z.h ∧ OkCalls (CanRead X) z.h) ∧ lifeLength ([] ++ x :: []) < 2 ^ 64 ∧
    x.k = x.conc.log.length ∧ Ev.call 1 (.delete (.specificVertex [W.u 1])) ∈ x.h ∧ Ev.ret 1 (.ok .unit) ∈ x.h ∧
    ∀ op, After Counts x [] 1 (.delete (.specificVertex [W.u 1])) op → ∀ w ∈ op.newVertices, w.id ≠ W.u 1 := by
  have hv : (newDb none).2 = .ok Rocks.init := rfl
  have e := Exec.nil (X := X) (s := Rocks.init)
  have e := e.snoc (.call _ 0 .sorted (.createVertex ⟨W.u 1, W.t⟩) rfl)
  have e := e.snoc (.get _ 0 _ _ _ rfl)
  have e := e.snoc (.write _ 0 _ _ rfl)
  have e := e.snoc (.ret _ 0 _ rfl (by simp [Conc.init]) (by simp [Conc.init]))
  have e := e.snoc (.call _ 1 .sorted (.delete (.specificVertex [W.u 1])) rfl)
  have e := e.snoc (.get _ 1 _ _ _ rfl)
  have e := e.snoc (.readLock _ 1 _ _ rfl rfl)
  have e := e.snoc (.scan _ 1 _ _ _ rfl)
  have e := e.snoc (.scan _ 1 _ _ _ rfl)
  have e := e.snoc (.scan _ 1 _ _ _ rfl)
  have e := e.snoc (.write _ 1 _ _ rfl)
  have e := e.snoc (.unlockRead _ 1 _ rfl (List.mem_cons_self))
  have e := e.snoc (.ret _ 1 _ rfl nofun (by simp [Conc.init]))
  have l1 := RocksLife.new (X := X) hv
  have l2 := RocksLife.again l1 e (Nat.le_refl _) rfl
  have q1 : SeqWrites [.call 0 (.createVertex ⟨W.u 1, W.t⟩), .ret 0 (.ok (.bool true)),
      .call 1 (.delete (.specificVertex [W.u 1])), .ret 1 (.ok .unit)] := by
    intro a b c op he hw c' op' hm hw'
    rcases a with _ | ⟨x1, _ | ⟨x2, _ | ⟨x3, _ | ⟨x4, a⟩⟩⟩⟩
    · cases hm
    · simp at he
    · simp at he
      obtain ⟨rfl, rfl, _⟩ := he
      simp at hm
      obtain ⟨rfl, rfl⟩ := hm
      exact ⟨.ok (.bool true), by simp⟩
    · simp at he
    · simp at he
  have o1 : OkCalls (CanRead X) [.call 0 (.createVertex ⟨W.u 1, W.t⟩), .ret 0 (.ok (.bool true)),
      .call 1 (.delete (.specificVertex [W.u 1])), .ret 1 (.ok .unit)] := by
    intro c op hm
    simp at hm
    rcases hm with ⟨_, rfl⟩ | ⟨_, rfl⟩ <;> trivial
  refine ⟨_, _, l2, fun x hx => ?_, Nat.lt_of_le_of_lt (show _ ≤ 4 from Nat.le_refl _) (by decide), rfl, by simp, by simp, ?_⟩
  · simp at hx
    subst hx
    exact ⟨q1.apart, o1⟩
  · rintro op (⟨c', h, hb⟩ | ⟨y, hy, _⟩) w hw
    · simp at h
      rcases h with ⟨rfl, rfl⟩ | ⟨rfl, rfl⟩
      · refine absurd ⟨fun o ho => ?_, [.call 0 (.createVertex ⟨W.u 1, W.t⟩)], [.call 1 (.delete (.specificVertex [W.u 1])), .ret 1 (.ok .unit)], .ok (.bool true), rfl, by simp⟩ hb
        simp at ho
        subst ho
        exact Or.inl rfl
      · cases hw
    · cases hy

end IndraDB
